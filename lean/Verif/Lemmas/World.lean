import Verif.Lemmas.IncAny

namespace Verif
variable {V : Type _}

open IncProblem

/-- Number of contained batches (with multiplicity) holding variable `d`. -/
def useCount (B : BatchId → OptProblem V) (ps : List BatchId) (d : DVId) : Nat :=
  ps.countP fun b => (B b).isDVInProblem d

structure WInv (w : World V) : Prop where
  batches : ∀ b, BInv w.heap (w.B b)
  nd : (AL.keys w.inc.counts).Nodup
  g : GInv (fun d => (AL.get d w.inc.counts).map Prod.snd) w.inc.groups w.inc.ordering
  zero : ∀ d, AL.get d w.inc.counts = none ↔ useCount w.B w.inc.problems d = 0
  some : ∀ d c g, AL.get d w.inc.counts = some (c, g) → c = useCount w.B w.inc.problems d ∧
    ∀ b ∈ w.inc.problems, ∀ g', AL.get d (w.B b).lookup = some g' → g' = g
  et : (w.inc.problems.flatMap fun b => (w.B b).etLookup).Nodup
  bkn : (AL.keys w.inc.backup).Nodup
  len : w.inc.problems.length ≤ maxBatches

theorem WInv.c {w : World V} (hw : WInv w) : CInv (fun d => AL.get d w.inc.counts) w.inc :=
  ⟨hw.nd, fun _ => rfl, hw.g⟩

theorem WInv.init (h : Heap V) : WInv (World.init h) where
  batches := fun _ => BInv.empty _
  nd := by simp [World.init, IncProblem.empty, AL.keys]
  g := GInv.init
  zero := by simp [World.init, IncProblem.empty, useCount]
  some := by simp [World.init, IncProblem.empty]
  et := by simp [World.init, IncProblem.empty]
  bkn := by simp [World.init, IncProblem.empty, AL.keys]
  len := by simp [World.init, IncProblem.empty]

/-! ### add -/

theorem addErrorLoop_eq {h : Heap V} (B : BatchId → OptProblem V) {p : OptProblem V} (_hi : BInv h p)
    (n i : Nat) (q : IncProblem V) (hn : i + n = p.errorTerms.length) :
    addErrorLoop B p n i q =
      if ∃ e ∈ p.errorTerms.drop i, q.isETInProblem B e = true then .throw .invalidOperation q else .ok () q := by
  induction n generalizing i with
  | zero => rw [List.drop_of_length_le (by omega)]; simp [addErrorLoop]
  | succ n ih =>
    have hlt : i < p.errorTerms.length := by omega
    rw [addErrorLoop, OptProblem.errorTerm, List.getElem?_eq_getElem hlt]
    simp only
    rw [List.drop_eq_getElem_cons hlt, ih (i+1) (by omega)]
    by_cases h1 : q.isETInProblem B p.errorTerms[i] = true
    · rw [if_pos h1, if_pos ⟨_, List.mem_cons_self, h1⟩]
    · rw [if_neg h1]
      congr 1
      simp only [List.mem_cons, exists_eq_or_imp, h1, Bool.false_eq_true, false_or]

/-- Can batch `p` be added?  Its groups agree with those recorded and its error terms are new. -/
def Addable (B : BatchId → OptProblem V) (q : IncProblem V) (p : OptProblem V) : Prop :=
  (∀ d g, AL.get d p.lookup = some g → ∀ c g', AL.get d q.counts = some (c, g') → g' = g) ∧
  (∀ e ∈ p.etLookup, ∀ b' ∈ q.problems, e ∉ (B b').etLookup) ∧ q.problems.length < maxBatches

theorem isET_iff (B : BatchId → OptProblem V) (q : IncProblem V) (e : ETId) :
    q.isETInProblem B e = true ↔ ∃ b ∈ q.problems, e ∈ (B b).etLookup := by
  simp [IncProblem.isETInProblem, OptProblem.isETInProblem]

structure AddResult (w : World V) (b : BatchId) (q' : IncProblem V) : Prop where
  c : CInv (addU (fun d => AL.get d w.inc.counts) (elems (w.B b))) q'
  problems : q'.problems = w.inc.problems ++ [b]
  backup : q'.backup = w.inc.backup
  ordering : q'.ordering = w.inc.ordering ++ (w.B b).ordering.filter (fun g => decide (g ∉ w.inc.ordering))
  groups : ∀ g', (AL.get g' q'.groups).getD [] = (AL.get g' w.inc.groups).getD [] ++
    ((elems (w.B b)).filter fun x => decide (x.2 = g' ∧ AL.get x.1 w.inc.counts = none)).map Prod.fst

theorem mem_elems {h : Heap V} {p : OptProblem V} (hi : BInv h p) (d : DVId) (g : GroupId) :
    (d, g) ∈ elems p ↔ AL.get d p.lookup = some g := by
  rw [← elems_get hi]
  exact ⟨AL.get_of_mem (elems_nodup hi), AL.get_mem⟩

theorem insAll_elems {h : Heap V} {p : OptProblem V} (hi : BInv h p) (o : List GroupId) :
    insAll ((elems p).map Prod.snd) o = o ++ p.ordering.filter (fun g => decide (g ∉ o)) := by
  rw [← insAll_nodup _ _ hi.g.nodupO]
  have key : ∀ ord : List GroupId, (∀ g ∈ ord, g ∈ p.ordering) → ∀ o,
      insAll ((enumDV p.groups ord).map fun d => (AL.get d p.lookup).getD 0) o = insAll ord o := by
    intro ord
    induction ord with
    | nil => intro _ o; rfl
    | cons g ord ih =>
      intro hm o
      obtain ⟨l, hl⟩ := (AL.mem_keys_iff _ _).1 ((hi.g.ord g).1 (hm g (by simp)))
      have he : enumDV p.groups (g :: ord) = l ++ enumDV p.groups ord := by
        simp [enumDV, hl]
      rw [he, List.map_append, insAll_append, ih (fun x hx => hm x (by simp [hx])),
        insAll_const _ g o _ (by simpa using hi.g.ne g l hl)]
      · rfl
      · intro x hx
        obtain ⟨d, hd, rfl⟩ := List.mem_map.1 hx
        simp [(hi.g.mem g l hl d).1 hd]
  have := key p.ordering (fun _ h => h) o
  rw [← this]
  simp [elems, Function.comp_def]

/-- Variables are counted at most as often as there are batches. -/
theorem WInv.cnt_le {w : World V} (hw : WInv w) (d : DVId) : cntOf (AL.get d w.inc.counts) ≤ w.inc.problems.length := by
  cases hc : AL.get d w.inc.counts with
  | none => simp [cntOf]
  | some x =>
    obtain ⟨c, g⟩ := x
    simp only [cntOf, Option.map_some, Option.getD_some, (hw.some d c g hc).1, useCount]
    exact List.countP_le_length

theorem WInv.cnt_lt {w : World V} (hw : WInv w) (d : DVId) : cntOf (AL.get d w.inc.counts) + 1 < 2 ^ 64 := by
  have h1 := hw.cnt_le d
  have h2 := hw.len
  have h3 : maxBatches + 1 < 2 ^ 64 := by decide
  omega

theorem add_ok {w : World V} (hw : WInv w) {b : BatchId} (ha : Addable w.B w.inc (w.B b)) :
    ∃ q', w.inc.add w.B (some b) = .ok () q' ∧ AddResult w b q' := by
  have hb := hw.batches b
  obtain ⟨q1, h1, hi1, h2, h3, h4, h5⟩ := addList_ok hw.c (elems (w.B b)) (elems_nodup hb)
    (fun d g hd c g' hU => ha.1 d g ((mem_elems hb d g).1 hd) c g' hU)
    (fun d g _ => hw.cnt_lt d)
  have hlen : (w.B b).numErrorTerms = (w.B b).errorTerms.length := by
    rw [hb.et.length_eq]; rfl
  refine ⟨{ q1 with problems := q1.problems ++ [b] }, ?_, ⟨⟨hi1.nd, hi1.cnt, hi1.g⟩, by simp [h2], h3,
    by rw [← insAll_elems hb]; exact h4, h5⟩⟩
  simp only [IncProblem.add]
  rw [addLoop_eq hb _ 0 _ (by rw [elems_length hb]; omega), List.drop_zero, h1]
  simp only [Res.bind]
  rw [addErrorLoop_eq w.B hb _ 0 _ (by omega), List.drop_zero, if_neg]
  · simp only [h2, if_pos ha.2.2]
  · rintro ⟨e, he, h6⟩
    rw [isET_iff, h2] at h6
    obtain ⟨b', hb', h7⟩ := h6
    exact ha.2.1 e (hb.et.mem_iff.1 he) b' hb' h7

/-- a batch that could be added were there room makes `push_back` throw when the vector is full. -/
theorem add_full {w : World V} (hw : WInv w) {b : BatchId}
    (h1 : ∀ d g, AL.get d (w.B b).lookup = some g → ∀ c g', AL.get d w.inc.counts = some (c, g') → g' = g)
    (h2 : ∀ e ∈ (w.B b).etLookup, ∀ b' ∈ w.inc.problems, e ∉ (w.B b').etLookup) (h3 : ¬ w.inc.problems.length < maxBatches) :
    ∃ q', w.inc.add w.B (some b) = .throw .external q' ∧ q'.problems = w.inc.problems := by
  have hb := hw.batches b
  obtain ⟨q1, k1, hi1, k2, -, -, -⟩ := addList_ok hw.c (elems (w.B b)) (elems_nodup hb)
    (fun d g hd c g' hU => h1 d g ((mem_elems hb d g).1 hd) c g' hU)
    (fun d g _ => hw.cnt_lt d)
  have hlen : (w.B b).numErrorTerms = (w.B b).errorTerms.length := by
    rw [hb.et.length_eq]; rfl
  refine ⟨q1, ?_, k2⟩
  simp only [IncProblem.add]
  rw [addLoop_eq hb _ 0 _ (by rw [elems_length hb]; omega), List.drop_zero, k1]
  simp only [Res.bind]
  rw [addErrorLoop_eq w.B hb _ 0 _ (by omega), List.drop_zero, if_neg]
  · simp only [k2, if_neg h3]
  · rintro ⟨e, he, h6⟩
    rw [isET_iff, k2] at h6
    obtain ⟨b', hb', h7⟩ := h6
    exact h2 e (hb.et.mem_iff.1 he) b' hb' h7

theorem add_not_ok {w : World V} (hw : WInv w) {b : BatchId} (ha : ¬ Addable w.B w.inc (w.B b)) :
    ∃ e q', w.inc.add w.B (some b) = .throw e q' ∧ (w.inc.problems.length < maxBatches → e = .invalidOperation) := by
  have hb := hw.batches b
  simp only [IncProblem.add]
  rw [addLoop_eq hb _ 0 _ (by rw [elems_length hb]; omega), List.drop_zero]
  by_cases hc : ∀ d g, AL.get d (w.B b).lookup = some g → ∀ c g', AL.get d w.inc.counts = some (c, g') → g' = g
  · obtain ⟨q1, h1, hi1, h2, h3, h4, h5⟩ := addList_ok hw.c (elems (w.B b)) (elems_nodup hb)
      (fun d g hd c g' hU => hc d g ((mem_elems hb d g).1 hd) c g' hU)
      (fun d g _ => hw.cnt_lt d)
    have hlen : (w.B b).numErrorTerms = (w.B b).errorTerms.length := by
      rw [hb.et.length_eq]; rfl
    rw [h1]
    simp only [Res.bind]
    rw [addErrorLoop_eq w.B hb _ 0 _ (by omega), List.drop_zero]
    by_cases hcon : ∃ e ∈ (w.B b).errorTerms, isETInProblem w.B q1 e = true
    · rw [if_pos hcon]; exact ⟨_, q1, rfl, fun _ => rfl⟩
    · rw [if_neg hcon]
      simp only [h2]
      by_cases hl : w.inc.problems.length < maxBatches
      · exfalso
        apply ha
        refine ⟨hc, fun e he b' hb' hh => hcon ⟨e, hb.et.mem_iff.2 he, ?_⟩, hl⟩
        rw [isET_iff, h2]
        exact ⟨b', hb', hh⟩
      · rw [if_neg hl]
        exact ⟨_, q1, rfl, fun h => absurd h hl⟩
  · have : ∃ d g c g', (d, g) ∈ elems (w.B b) ∧ AL.get d w.inc.counts = some (c, g') ∧ g' ≠ g := by
      by_contra hcon
      apply hc
      intro d g hd c g' hU
      by_contra hne
      exact hcon ⟨d, g, c, g', (mem_elems hb d g).2 hd, hU, hne⟩
    obtain ⟨q1, h1⟩ := addList_throw hw.c (elems (w.B b)) (elems_nodup hb) this
      (fun d g _ => hw.cnt_lt d)
    rw [h1]
    exact ⟨_, q1, rfl, fun _ => rfl⟩

theorem useCount_append (B : BatchId → OptProblem V) (ps : List BatchId) (b : BatchId) (d : DVId) :
    useCount B (ps ++ [b]) d = useCount B ps d + if d ∈ AL.keys (B b).lookup then 1 else 0 := by
  simp only [useCount, List.countP_append, List.countP_singleton, OptProblem.isDVInProblem]
  congr 1
  by_cases h : d ∈ AL.keys (B b).lookup
  · simp [h, (AL.has_iff _ _).2 h]
  · simp [h, (AL.has_eq_false_iff _ _).2 h]

theorem useCount_pos {B : BatchId → OptProblem V} {ps : List BatchId} {b : BatchId} {d : DVId}
    (hb : b ∈ ps) (hd : d ∈ AL.keys (B b).lookup) : 0 < useCount B ps d := by
  unfold useCount
  rw [List.countP_pos_iff]
  exact ⟨b, hb, (AL.has_iff _ _).2 hd⟩

theorem useCount_pos_iff {B : BatchId → OptProblem V} {ps : List BatchId} {d : DVId} :
    0 < useCount B ps d ↔ ∃ b ∈ ps, d ∈ AL.keys (B b).lookup := by
  unfold useCount
  rw [List.countP_pos_iff]
  simp only [OptProblem.isDVInProblem, AL.has_iff]

theorem AddResult.inv {w : World V} (hw : WInv w) {b : BatchId} {q' : IncProblem V}
    (ha : Addable w.B w.inc (w.B b)) (hr : AddResult w b q') : WInv { w with inc := q' } := by
  have hb := hw.batches b
  have hU : ∀ d, AL.get d q'.counts = addU (fun d => AL.get d w.inc.counts) (elems (w.B b)) d := hr.c.cnt
  refine ⟨hw.batches, hr.c.nd, ?_, ?_, ?_, ?_, by rw [hr.backup]; exact hw.bkn, by have := ha.2.2; simp [hr.problems]; omega⟩
  · have := hr.c.g
    simp only [← hU] at this
    exact this
  · intro d
    simp only [hU, addU, hr.problems, useCount_append, elems_get hb]
    cases hg : AL.get d (w.B b).lookup with
    | none =>
      have : d ∉ AL.keys (w.B b).lookup := (AL.get_eq_none_iff _ _).1 hg
      simp [this, hw.zero]
    | some g =>
      have : d ∈ AL.keys (w.B b).lookup := (AL.mem_keys_iff _ _).2 ⟨g, hg⟩
      simp [this]
  · intro d c g hd
    simp only [hU, addU, elems_get hb] at hd
    simp only [hr.problems, useCount_append]
    cases hg : AL.get d (w.B b).lookup with
    | none =>
      rw [hg] at hd
      have hnot : d ∉ AL.keys (w.B b).lookup := (AL.get_eq_none_iff _ _).1 hg
      obtain ⟨h1, h2⟩ := hw.some d c g hd
      refine ⟨by simp [hnot, h1], ?_⟩
      intro b' hb' g' hg'
      simp only [List.mem_append, List.mem_singleton] at hb'
      rcases hb' with hb' | rfl
      · exact h2 b' hb' g' hg'
      · rw [hg] at hg'; simp at hg'
    | some g0 =>
      rw [hg] at hd
      simp only [Option.some.injEq, Prod.mk.injEq] at hd
      obtain ⟨rfl, rfl⟩ := hd
      have hin : d ∈ AL.keys (w.B b).lookup := (AL.mem_keys_iff _ _).2 ⟨_, hg⟩
      constructor
      · simp only [hin, if_true, cntOf]
        cases hc : AL.get d w.inc.counts with
        | none => simp [(hw.zero d).1 hc]
        | some x =>
          obtain ⟨c, g⟩ := x
          simp [(hw.some d c g hc).1]
      · intro b' hb' g' hg'
        simp only [List.mem_append, List.mem_singleton] at hb'
        rcases hb' with hb' | rfl
        · cases hc : AL.get d w.inc.counts with
          | none =>
            have := useCount_pos (d := d) hb' ((AL.mem_keys_iff _ _).2 ⟨_, hg'⟩)
            rw [(hw.zero d).1 hc] at this
            omega
          | some x =>
            obtain ⟨c, g⟩ := x
            have h1 := (hw.some d c g hc).2 b' hb' g' hg'
            have h2 := ha.1 d g0 hg c g hc
            rw [h1, h2]
        · rw [hg] at hg'; injection hg' with hg'; exact hg'.symm
  · simp only [hr.problems, List.flatMap_append, List.flatMap_singleton]
    rw [List.nodup_append]
    refine ⟨hw.et, hb.etn, ?_⟩
    intro e he e' he'
    rintro rfl
    obtain ⟨b', hb', h1⟩ := List.mem_flatMap.1 he
    exact ha.2.1 e he' b' hb' h1

/-! ### remove -/

structure RemResult (w : World V) (b : BatchId) (idx : Nat) (q' : IncProblem V) : Prop where
  c : CInv (remU (fun d => AL.get d w.inc.counts) (AL.keys (elems (w.B b)))) q'
  problems : q'.problems = w.inc.problems.eraseIdx idx
  bkn : (AL.keys q'.backup).Nodup
  backup : ∀ d, AL.get d q'.backup =
    if d ∈ AL.keys (w.B b).lookup ∧ AL.get d q'.counts = none then none else AL.get d w.inc.backup
  ordering : q'.ordering = w.inc.ordering.filter (fun g => decide (g ∈ AL.keys q'.groups))
  groups : ∀ g, (AL.get g q'.groups).getD [] =
    ((AL.get g w.inc.groups).getD []).filter fun x => (AL.get x q'.counts).isSome

theorem removeIdx_ok {w : World V} (hw : WInv w) {b : BatchId} {idx : Nat}
    (hidx : w.inc.problems[idx]? = some b) :
    ∃ q', w.inc.removeIdx w.B idx = .ok () q' ∧ RemResult w b idx q' := by
  have hb := hw.batches b
  have hmem : b ∈ w.inc.problems := List.mem_of_getElem? hidx
  obtain ⟨q1, h1, hi1, h2, h3, h4, h5, h6⟩ := removeList_ok hw.c (AL.keys (elems (w.B b))) (elems_nodup hb) hw.bkn
    (by
      intro d hd
      rw [(elems_perm hb).mem_iff] at hd
      have hpos := useCount_pos hmem hd
      cases hc : AL.get d w.inc.counts with
      | none => rw [(hw.zero d).1 hc] at hpos; omega
      | some x =>
        obtain ⟨c, g⟩ := x
        have := (hw.some d c g hc).1
        exact ⟨c - 1, g, by simp; omega⟩)
  refine ⟨{ q1 with problems := q1.problems.eraseIdx idx }, ?_,
    ⟨⟨hi1.nd, hi1.cnt, hi1.g⟩, by simp [h2], h3, ?_, h5, ?_⟩⟩
  · simp only [IncProblem.removeIdx, hidx]
    rw [removeLoop_eq hb _ 0 _ (by rw [elems_length hb]; omega), List.drop_zero, h1]
    rfl
  · intro d
    simp only [h4, hi1.cnt, (elems_perm hb).mem_iff]
  · intro g
    simp only [h6, hi1.cnt]

theorem countP_eraseIdx {α : Type _} (l : List α) (p : α → Bool) (i : Nat) (a : α) (h : l[i]? = some a) :
    l.countP p = (l.eraseIdx i).countP p + if p a then 1 else 0 := by
  induction l generalizing i with
  | nil => simp at h
  | cons x l ih =>
    cases i with
    | zero =>
      simp at h; subst h
      simp only [List.eraseIdx_cons_zero, List.countP_cons]
    | succ i =>
      simp only [List.getElem?_cons_succ] at h
      simp only [List.eraseIdx_cons_succ, List.countP_cons]
      rw [ih i h]; omega

theorem useCount_eraseIdx (B : BatchId → OptProblem V) {ps : List BatchId} {idx : Nat} {b : BatchId}
    (h : ps[idx]? = some b) (d : DVId) :
    useCount B ps d = useCount B (ps.eraseIdx idx) d + if d ∈ AL.keys (B b).lookup then 1 else 0 := by
  unfold useCount
  rw [countP_eraseIdx ps _ idx b h]
  congr 1
  simp only [OptProblem.isDVInProblem]
  by_cases h : d ∈ AL.keys (B b).lookup
  · simp [h, (AL.has_iff _ _).2 h]
  · simp [h, (AL.has_eq_false_iff _ _).2 h]

theorem RemResult.counts {w : World V} (hw : WInv w) {b : BatchId} {idx : Nat} {q' : IncProblem V}
    (hr : RemResult w b idx q') (d : DVId) : AL.get d q'.counts =
      if d ∈ AL.keys (w.B b).lookup then decU (AL.get d w.inc.counts) else AL.get d w.inc.counts := by
  rw [hr.c.cnt, remU]
  simp only [(elems_perm (hw.batches b)).mem_iff]

theorem RemResult.inv {w : World V} (hw : WInv w) {b : BatchId} {idx : Nat} {q' : IncProblem V}
    (hidx : w.inc.problems[idx]? = Option.some b)
    (hr : RemResult w b idx q') : WInv { w with inc := q' } := by
  have hb := hw.batches b
  have hU := hr.counts hw
  have huse := useCount_eraseIdx w.B hidx
  have hsub : (w.inc.problems.eraseIdx idx).Sublist w.inc.problems := List.eraseIdx_sublist _ _
  -- counts in terms of uses
  have hcnt : ∀ d, (AL.get d q'.counts = none ↔ useCount w.B q'.problems d = 0) ∧
      ∀ c g, AL.get d q'.counts = Option.some (c, g) → c = useCount w.B q'.problems d ∧
        ∃ c', AL.get d w.inc.counts = Option.some (c', g) := by
    intro d
    rw [hU, hr.problems]
    have hu := huse d
    by_cases hd : d ∈ AL.keys (w.B b).lookup
    · simp only [hd, if_true] at hu ⊢
      cases hc : AL.get d w.inc.counts with
      | none => have := (hw.zero d).1 hc; omega
      | some x =>
        obtain ⟨c, g⟩ := x
        have h1 := (hw.some d c g hc).1
        match c, h1 with
        | 0, h1 => omega
        | 1, h1 => simp [decU]; omega
        | c + 2, h1 =>
          simp only [decU, Option.some.injEq, Prod.mk.injEq, reduceCtorEq, false_iff]
          refine ⟨by omega, ?_⟩
          rintro c' g' ⟨rfl, rfl⟩
          exact ⟨by omega, _, rfl, rfl⟩
    · simp only [hd, if_false, Nat.add_zero] at hu ⊢
      rw [← hu]
      exact ⟨hw.zero d, fun c g h => ⟨(hw.some d c g h).1, c, h⟩⟩
  refine ⟨hw.batches, hr.c.nd, ?_, fun d => (hcnt d).1, ?_, ?_, hr.bkn, by
    rw [hr.problems]; exact (List.length_eraseIdx_le _ _).trans hw.len⟩
  · have := hr.c.g
    simp only [← hr.c.cnt] at this
    exact this
  · intro d c g hd
    obtain ⟨h1, c', h2⟩ := (hcnt d).2 c g hd
    refine ⟨h1, ?_⟩
    intro b' hb' g' hg'
    simp only [hr.problems] at hb'
    exact (hw.some d c' g h2).2 b' (hsub.subset hb') g' hg'
  · simp only [hr.problems]
    apply List.Sublist.nodup _ hw.et
    rw [List.flatMap_def, List.flatMap_def]
    exact (hsub.map _).flatten

/-! ### the other operations -/

theorem checkOrdering_iff' (q : IncProblem V) (seen o : List GroupId) :
    q.checkOrdering seen o = true ↔ (∀ g ∈ o, g ∈ AL.keys q.groups) ∧ o.Nodup ∧ ∀ g ∈ o, g ∉ seen := by
  have := checkOrdering_iff (V := V) ⟨[], [], q.groups, [], [], []⟩ seen o
  rw [← this]
  have e : ∀ o seen, q.checkOrdering seen o =
      OptProblem.checkOrdering (V := V) ⟨[], [], q.groups, [], [], []⟩ seen o := by
    intro o
    induction o with
    | nil => intro seen; rfl
    | cons g o ih =>
      intro seen
      simp only [IncProblem.checkOrdering, OptProblem.checkOrdering, ih, IncProblem.isGroupInProblem,
        OptProblem.isGroupInProblem]
      rfl
  rw [e]

theorem inc_setOrdering_eq {U : DVId → Option GroupId} {q : IncProblem V} (hi : GInv U q.groups q.ordering)
    (o : List GroupId) :
    (o.Perm q.ordering ∧ q.setGroupsOrdering o = .ok () { q with ordering := o }) ∨
    (¬ o.Perm q.ordering ∧ q.setGroupsOrdering o = .throw .outOfBound q) := by
  unfold IncProblem.setGroupsOrdering
  by_cases hl : o.length = q.ordering.length
  · have hiff : q.checkOrdering [] o = true ↔ o.Perm q.ordering := by
      rw [checkOrdering_iff', ← perm_of_check hi.nodupO hl]
      simp only [List.not_mem_nil, not_false_eq_true, implies_true, and_true]
      constructor
      · rintro ⟨a, b⟩; exact ⟨b, fun g hg => (hi.ord g).2 (a g hg)⟩
      · rintro ⟨a, b⟩; exact ⟨fun g hg => (hi.ord g).1 (b g hg), a⟩
    by_cases hp : o.Perm q.ordering
    · left; refine ⟨hp, ?_⟩; rw [if_neg (by simpa using hl), if_pos (hiff.2 hp)]
    · right; refine ⟨hp, ?_⟩; rw [if_neg (by simpa using hl), if_neg (fun h => hp (hiff.1 h))]
  · right
    exact ⟨fun hp => hl hp.length_eq, by rw [if_pos hl]⟩

/-- Calls that change which variables or error terms a batch holds. -/
def BOp.restructures : BOp V → Bool
  | .addDV _ _ => true
  | .addET _ => true
  | .clear => true
  | _ => false

theorem BEff.lookup {op : BOp V} {s t : OptProblem V × Heap V} {b : Bool} (h : BEff op s b t)
    (hr : op.restructures = false) : t.1.lookup = s.1.lookup ∧ t.1.etLookup = s.1.etLookup := by
  cases h with
  | fail => exact ⟨rfl, rfl⟩
  | heap hop hh he => exact ⟨rfl, rfl⟩
  | addDV d g hop hd => subst hop; simp [BOp.restructures] at hr
  | addET e hop he hd => subst hop; simp [BOp.restructures] at hr
  | clear hop => subst hop; simp [BOp.restructures] at hr
  | order o hop ho => exact ⟨rfl, rfl⟩
  | permET ok perm hop l hl => exact ⟨rfl, rfl⟩
  | permDV ok perm g hop l l' hg hl => exact ⟨rfl, rfl⟩
  | save hop => exact ⟨rfl, rfl⟩

/-- Calls that keep the variables of a batch: those that do not restructure, those that throw, and adding an error term. -/
theorem BEff.lookupDV {op : BOp V} {s t : OptProblem V × Heap V} {b : Bool} (h : BEff op s b t)
    (hr : op.restructures = false ∨ b = false ∨ ∃ e, op = .addET (some e)) : t.1.lookup = s.1.lookup := by
  cases h with
  | addDV d g hop hd => subst hop; simp [BOp.restructures] at hr
  | clear hop => subst hop; simp [BOp.restructures] at hr
  | _ => rfl

theorem BEff.etLookup {op : BOp V} {s t : OptProblem V × Heap V} {b : Bool} (h : BEff op s b t)
    (hr : op.restructures = false ∨ b = false) : t.1.etLookup = s.1.etLookup := by
  cases h with
  | addET e hop he hd => subst hop; simp [BOp.restructures] at hr
  | clear hop => subst hop; simp [BOp.restructures] at hr
  | _ => rfl

theorem BEff.etLookup_add {e : ETId} {s t : OptProblem V × Heap V} {b : Bool} (h : BEff (.addET (some e)) s b t) :
    t.1.etLookup = s.1.etLookup ∨ t.1.etLookup = s.1.etLookup ++ [e] := by
  cases h with
  | addET e' hop he hd => cases hop; exact Or.inr rfl
  | clear hop => cases hop
  | _ => exact Or.inl rfl

theorem BEff.etDVs {op : BOp V} {s t : OptProblem V × Heap V} {b : Bool} (h : BEff op s b t) :
    t.2.etDVs = s.2.etDVs := by
  cases h with
  | heap hop hh he => exact he
  | _ => rfl

/-- Histories covered by the incremental-problem theorems: every `add` of a (non-null) batch was accepted, and of the calls
that succeed on a contained batch none adds a variable or clears it, and error terms are added only if no contained batch has
them and the batch is contained once. -/
def IOp.Regular (op : IOp V) (w : World V) (ok : Bool) : Prop :=
  match op with
  | .add (some _) => ok = true
  | .batch b bop => b ∈ w.inc.problems → bop.restructures = false ∨ ok = false ∨
      ∃ e, bop = .addET (some e) ∧ w.inc.problems.count b = 1 ∧ ∀ b' ∈ w.inc.problems, (w.B b').isETInProblem e = false
  | _ => True

theorem WInv.reIdx {w : World V} (hw : WInv w) {i : Nat} {b : Bool} {q' : IncProblem V}
    (h : (w.inc.removeIdx w.B i).outcome = Option.some (b, q')) : WInv { w with inc := q' } := by
  cases hidx : w.inc.problems[i]? with
  | none =>
    simp [IncProblem.removeIdx, hidx, Res.outcome] at h
    rw [← h.2]; exact hw
  | some bb =>
    obtain ⟨q1, h1, hr⟩ := removeIdx_ok hw hidx
    rw [h1] at h
    simp [Res.outcome] at h
    rw [← h.2]; exact hr.inv hw hidx

theorem WInv.step {w w' : World V} {op : IOp V} {b : Bool} (hw : WInv w)
    (h : (op.step w).outcome = Option.some (b, w')) (hreg : op.Regular w b) : WInv w' := by
  cases op with
  | add bb =>
    obtain ⟨q', h1, rfl⟩ := outcome_mapState h
    cases bb with
    | none =>
      simp [IncProblem.add, Res.outcome] at h1
      rw [← h1.2]; exact hw
    | some bb =>
      simp only [IOp.Regular] at hreg
      by_cases ha : Addable w.B w.inc (w.B bb)
      · obtain ⟨q1, h2, hr⟩ := add_ok hw ha
        rw [h2] at h1
        simp [Res.outcome] at h1
        rw [← h1.2]; exact hr.inv hw ha
      · obtain ⟨e, q1, h2, -⟩ := add_not_ok hw ha
        rw [h2] at h1
        simp [Res.outcome] at h1
        rw [hreg] at h1; simp at h1
  | removeIdx i =>
    obtain ⟨q', h1, rfl⟩ := outcome_mapState h
    exact hw.reIdx h1
  | remove bb =>
    obtain ⟨q', h1, rfl⟩ := outcome_mapState h
    cases bb with
    | none => simp [IncProblem.remove, Res.outcome] at h1; rw [← h1.2]; exact hw
    | some bb =>
      simp only [IncProblem.remove] at h1
      split at h1
      · exact hw.reIdx h1
      · simp [Res.outcome] at h1; rw [← h1.2]; exact hw
  | clear =>
    simp [IOp.step, Res.outcome] at h
    rw [← h.2]
    refine ⟨hw.batches, ?_, GInv.init, ?_, ?_, ?_, hw.bkn, by simp [IncProblem.clear]⟩
    · simp [IncProblem.clear, AL.keys]
    · simp [IncProblem.clear, useCount]
    · simp [IncProblem.clear]
    · simp [IncProblem.clear]
  | setOrdering o =>
    obtain ⟨q', h1, rfl⟩ := outcome_mapState h
    rcases inc_setOrdering_eq hw.g o with ⟨ho, h2⟩ | ⟨ho, h2⟩
    · rw [h2] at h1; simp [Res.outcome] at h1; rw [← h1.2]
      exact ⟨hw.batches, hw.nd, hw.g.reorder ho, hw.zero, hw.some, hw.et, hw.bkn, hw.len⟩
    · rw [h2] at h1; simp [Res.outcome] at h1; rw [← h1.2]; exact hw
  | permProblems perm =>
    simp only [IOp.step, IncProblem.permuteProblems] at h
    obtain ⟨l, hl, rfl⟩ := permute_outcome _ _ h
    have huse : ∀ d, useCount w.B l d = useCount w.B w.inc.problems d := fun d => hl.countP_eq _
    refine ⟨hw.batches, hw.nd, hw.g, ?_, ?_, ?_, hw.bkn, by rw [hl.length_eq]; exact hw.len⟩
    · intro d; simp only [huse]; exact hw.zero d
    · intro d c g hd
      simp only [huse, hl.mem_iff]
      exact hw.some d c g hd
    · have : (l.flatMap fun b => (w.B b).etLookup).Perm (w.inc.problems.flatMap fun b => (w.B b).etLookup) :=
        hl.flatMap_right _
      exact this.nodup_iff.2 hw.et
  | permDV perm g =>
    simp only [IOp.step, IncProblem.permuteDesignVariables] at h
    cases hg : AL.get g w.inc.groups with
    | none => rw [hg] at h; simp [Res.mapState, Res.outcome] at h; rw [← h.2]; exact hw
    | some l =>
      rw [hg] at h
      obtain ⟨l', hl, rfl⟩ := permute_outcome _ _ h
      exact ⟨hw.batches, hw.nd, hw.g.permGroup hg hl, hw.zero, hw.some, hw.et, hw.bkn, hw.len⟩
  | save =>
    simp [IOp.step, Res.outcome] at h
    rw [← h.2]
    exact ⟨hw.batches, hw.nd, hw.g, hw.zero, hw.some, hw.et, saveLoop_nodup _ _ _ hw.bkn, hw.len⟩
  | restore =>
    simp [IOp.step, Res.outcome] at h
    rw [← h.2]
    exact ⟨fun b => (hw.batches b).heap (restoreLoop_rest _ _).2.2.1, hw.nd, hw.g, hw.zero, hw.some, hw.et, hw.bkn, hw.len⟩
  | batch bb bop =>
    obtain ⟨s, h1, rfl⟩ := outcome_mapState h
    have heff := BOp.step_eff (s := (w.B bb, w.heap)) (hw.batches bb) h1
    simp only [IOp.Regular] at hreg
    -- contained batches keep their variables
    have hlk : ∀ b' ∈ w.inc.problems, (if b' = bb then s.1 else w.B b').lookup = (w.B b').lookup := by
      intro b' hb'
      split
      · rename_i e
        subst e
        rcases hreg hb' with h | h | ⟨e, h, -⟩
        · exact heff.lookupDV (Or.inl h)
        · exact heff.lookupDV (Or.inr (Or.inl h))
        · exact heff.lookupDV (Or.inr (Or.inr ⟨e, h⟩))
      · rfl
    have huse : ∀ d, useCount (fun b' => if b' = bb then s.1 else w.B b') w.inc.problems d =
        useCount w.B w.inc.problems d := by
      intro d
      unfold useCount
      apply List.countP_congr
      intro b' hb'
      simp only [OptProblem.isDVInProblem, hlk b' hb']
    refine ⟨?_, hw.nd, hw.g, ?_, ?_, ?_, hw.bkn, hw.len⟩
    · intro b'
      simp only
      split
      · exact heff.inv (hw.batches bb)
      · exact (hw.batches b').heap heff.etDVs
    · intro d; simp only [huse]; exact hw.zero d
    · intro d c g hd
      simp only [huse]
      refine ⟨(hw.some d c g hd).1, ?_⟩
      intro b' hb' g' hg'
      simp only [hlk b' hb'] at hg'
      exact (hw.some d c g hd).2 b' hb' g' hg'
    · by_cases hbb : bb ∈ w.inc.problems
      swap
      · have : (w.inc.problems.flatMap fun b => (if b = bb then s.1 else w.B b).etLookup) =
            w.inc.problems.flatMap fun b => (w.B b).etLookup := by
          rw [List.flatMap_def, List.flatMap_def]
          congr 1
          apply List.map_congr_left
          intro b' hb'
          rw [if_neg (fun e : b' = bb => hbb (e ▸ hb'))]
        simp only [this]; exact hw.et
      have hsame : s.1.etLookup = (w.B bb).etLookup →
          (w.inc.problems.flatMap fun b => (if b = bb then s.1 else w.B b).etLookup).Nodup := by
        intro he
        have : (w.inc.problems.flatMap fun b => (if b = bb then s.1 else w.B b).etLookup) =
            w.inc.problems.flatMap fun b => (w.B b).etLookup := by
          rw [List.flatMap_def, List.flatMap_def]
          congr 1
          apply List.map_congr_left
          intro b' hb'
          split
          · rename_i e; rw [he, e]
          · rfl
        rw [this]; exact hw.et
      rcases hreg hbb with h | h | ⟨e, h, hone, hfresh⟩
      · exact hsame (heff.etLookup (Or.inl h))
      · exact hsame (heff.etLookup (Or.inr h))
      · subst h
        rcases heff.etLookup_add with he | he
        · exact hsame he
        · obtain ⟨l1, l2, hl⟩ := List.append_of_mem hbb
          have hn1 : bb ∉ l1 := by
            intro hc
            have := List.count_pos_iff.2 hc
            rw [hl, List.count_append, List.count_cons_self] at hone; omega
          have hn2 : bb ∉ l2 := by
            intro hc
            have := List.count_pos_iff.2 hc
            rw [hl, List.count_append, List.count_cons_self] at hone; omega
          have hout : ∀ l : List BatchId, bb ∉ l → (l.flatMap fun b => (if b = bb then s.1 else w.B b).etLookup) =
              l.flatMap fun b => (w.B b).etLookup := by
            intro l hl
            rw [List.flatMap_def, List.flatMap_def]
            congr 1
            apply List.map_congr_left
            intro b' hb'
            rw [if_neg (fun e : b' = bb => hl (e ▸ hb'))]
          have hnot : e ∉ w.inc.problems.flatMap fun b => (w.B b).etLookup := by
            rw [List.mem_flatMap]
            rintro ⟨b', hb', hin⟩
            have := hfresh b' hb'
            simp [OptProblem.isETInProblem] at this
            exact this hin
          have hperm : (w.inc.problems.flatMap fun b => (if b = bb then s.1 else w.B b).etLookup).Perm
              (e :: w.inc.problems.flatMap fun b => (w.B b).etLookup) := by
            simp only [hl, List.flatMap_append, List.flatMap_cons, hout l1 hn1, hout l2 hn2, if_true, he]
            have h1 : (l1.flatMap (fun b => (w.B b).etLookup) ++ ((w.B bb).etLookup ++ [e] ++ l2.flatMap fun b => (w.B b).etLookup)) =
                (l1.flatMap (fun b => (w.B b).etLookup) ++ (w.B bb).etLookup) ++ e :: (l2.flatMap fun b => (w.B b).etLookup) := by
              simp [List.append_assoc]
            rw [h1, ← List.append_assoc]
            exact List.perm_middle
          exact hperm.nodup_iff.2 (List.nodup_cons.2 ⟨hnot, hw.et⟩)

/-- Worlds reachable by regular histories from freshly constructed objects, using only operations in `P`. -/
inductive ReachP (P : IOp V → Prop) (h0 : Heap V) : World V → Prop where
  | init : ReachP P h0 (World.init h0)
  | step {w w' : World V} (op : IOp V) (ok : Bool) : ReachP P h0 w → (op.step w).outcome = some (ok, w') →
      op.Regular w ok → P op → ReachP P h0 w'

/-- Worlds reachable by regular histories. -/
abbrev Reach (h0 : Heap V) : World V → Prop := ReachP (fun _ => True) h0

theorem ReachP.inv {P : IOp V → Prop} {h0 : Heap V} {w : World V} (h : ReachP P h0 w) : WInv w := by
  induction h with
  | init => exact WInv.init h0
  | step op ok _ h1 h2 _ ih => exact ih.step h1 h2

theorem removeIdx_not_ub {w : World V} (hw : WInv w) (i : Nat) : w.inc.removeIdx w.B i ≠ .ub := by
  cases hidx : w.inc.problems[i]? with
  | none => simp [IncProblem.removeIdx, hidx]
  | some b =>
    obtain ⟨q', h, -⟩ := removeIdx_ok hw hidx
    rw [h]; simp

/-- From an invariant state no call is undefined. -/
theorem WInv.step_not_ub {w : World V} (hw : WInv w) (op : IOp V) : op.step w ≠ .ub := by
  intro h
  cases op with
  | add b =>
    have h := mapState_ub h
    cases b with
    | none => simp [IncProblem.add] at h
    | some b =>
      by_cases ha : Addable w.B w.inc (w.B b)
      · obtain ⟨q', h1, -⟩ := add_ok hw ha; rw [h1] at h; simp at h
      · obtain ⟨e, q', h1, -⟩ := add_not_ok hw ha; rw [h1] at h; simp at h
  | removeIdx i => exact removeIdx_not_ub hw i (mapState_ub h)
  | remove b =>
    have h := mapState_ub h
    cases b with
    | none => simp [IncProblem.remove] at h
    | some b =>
      simp only [IncProblem.remove] at h
      split at h
      · exact removeIdx_not_ub hw _ h
      · simp at h
  | clear => simp [IOp.step] at h
  | setOrdering o =>
    have h := mapState_ub h
    rcases inc_setOrdering_eq hw.g o with ⟨-, h2⟩ | ⟨-, h2⟩ <;> rw [h2] at h <;> simp at h
  | permProblems perm => exact permute_not_ub _ _ (mapState_ub (mapState_ub h))
  | permDV perm g =>
    have h := mapState_ub h
    simp only [IncProblem.permuteDesignVariables] at h
    split at h
    · simp at h
    · exact permute_not_ub _ _ (mapState_ub h)
  | save => simp [IOp.step] at h
  | restore => simp [IOp.step] at h
  | batch b bop => exact BOp.step_not_ub _ _ (mapState_ub h)

theorem inc_designVariable_eq {w : World V} (hw : WInv w) (i : Nat) :
    w.inc.designVariable i = match (enumDV w.inc.groups w.inc.ordering)[i]? with
      | some d => .ok d ()
      | none => .throw .outOfBound () := by
  have hp : (enumDV w.inc.groups w.inc.ordering).Perm (AL.keys w.inc.counts) :=
    hw.g.enum_perm hw.nd (fun d => by
      rw [AL.mem_keys_iff]
      cases AL.get d w.inc.counts <;> simp)
  have hlen : (enumDV w.inc.groups w.inc.ordering).length = w.inc.counts.length := by
    rw [hp.length_eq]; simp [AL.keys]
  unfold IncProblem.designVariable
  by_cases hlt : i < w.inc.counts.length
  · rw [if_neg (by omega), GInv.scan_elem w.inc.groups i w.inc.ordering 0 (fun g hg => (hw.g.ord g).1 hg) (by omega)
      (by omega), List.getElem?_eq_getElem (by omega)]
    simp
  · rw [if_pos (by omega), List.getElem?_eq_none (by omega)]

/-- Index of an error term. -/
theorem errorIdxLoop_eq {h : Heap V} (B : BatchId → OptProblem V) (hB : ∀ b, BInv h (B b)) (idx : Nat)
    (bs all : List BatchId) (k run : Nat) (hrun : run ≤ idx) (hall : all.drop k = bs) :
    (match errorIdxLoop B idx bs k run with
      | none => (Res.throw .outOfBound () : Res Unit ETId)
      | some (k, j) =>
        match all[k]? with
        | none => .throw .stdOutOfRange ()
        | some b => (B b).errorTerm j) =
    match (bs.flatMap fun b => (B b).errorTerms)[idx - run]? with
      | some e => .ok e ()
      | none => .throw .outOfBound () := by
  induction bs generalizing k run with
  | nil => simp [errorIdxLoop]
  | cons b bs ih =>
    have hlen : (B b).numErrorTerms = (B b).errorTerms.length := by
      rw [(hB b).et.length_eq]; rfl
    have hk : all[k]? = some b := by
      have : (all.drop k)[0]? = some b := by rw [hall]; rfl
      simpa using this
    rw [errorIdxLoop]
    by_cases hlt : run + (B b).numErrorTerms > idx
    · simp only [hlt, if_true, hk, List.flatMap_cons]
      have : idx - run < (B b).errorTerms.length := by omega
      rw [List.getElem?_append_left this, OptProblem.errorTerm]
      cases (B b).errorTerms[idx - run]? <;> rfl
    · simp only [hlt, if_false]
      rw [ih (k+1) _ (by omega) (by
        have := congrArg List.tail hall
        simpa using this)]
      simp only [List.flatMap_cons]
      rw [List.getElem?_append_right (by omega)]
      congr 2
      omega

end Verif
