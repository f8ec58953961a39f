import Verif.Lemmas.World
import Verif.Lemmas.IncMore

/-! Helper lemmas for calls on a contained batch that change its variables. -/

namespace Verif
variable {V : Type _}
open IncProblem

theorem al_get_append {K W : Type _} [DecidableEq K] {k : K} {l : List (K × W)} (h : k ∈ AL.keys l) (m : List (K × W)) :
    AL.get k (l ++ m) = AL.get k l := by
  induction l with
  | nil => simp [AL.keys] at h
  | cons x l ih =>
    obtain ⟨k', v⟩ := x
    simp only [List.cons_append, AL.get]
    split
    · rfl
    · rename_i hne
      simp only [AL.keys, List.map_cons, List.mem_cons] at h
      exact ih (h.resolve_left (fun e => hne e.symm))

theorem al_set_append {K W : Type _} [DecidableEq K] {k : K} {l : List (K × W)} (h : k ∈ AL.keys l) (v : W) (m : List (K × W)) :
    AL.set k v (l ++ m) = AL.set k v l ++ m := by
  induction l with
  | nil => simp [AL.keys] at h
  | cons x l ih =>
    obtain ⟨k', v'⟩ := x
    simp only [List.cons_append, AL.set]
    split
    · rfl
    · rename_i hne
      simp only [AL.keys, List.map_cons, List.mem_cons] at h
      rw [ih (h.resolve_left (fun e => hne e.symm)), List.cons_append]

theorem al_del_append {K W : Type _} [DecidableEq K] {k : K} {l : List (K × W)} (h : k ∈ AL.keys l) (m : List (K × W)) :
    AL.del k (l ++ m) = AL.del k l ++ m := by
  induction l with
  | nil => simp [AL.keys] at h
  | cons x l ih =>
    obtain ⟨k', v'⟩ := x
    simp only [List.cons_append, AL.del]
    split
    · rfl
    · rename_i hne
      simp only [AL.keys, List.map_cons, List.mem_cons] at h
      rw [ih (h.resolve_left (fun e => hne e.symm)), List.cons_append]

/-- A variable counted `2^64 - 1` times in group 0 and listed in no group. -/
def phantom (d : DVId) (q : IncProblem V) : IncProblem V := { q with counts := q.counts ++ [(d, (2 ^ 64 - 1, 0))] }

theorem removeOne_fresh {q : IncProblem V} {d : DVId} (h : d ∉ AL.keys q.counts) : q.removeOne d = .ok () (phantom d q) := by
  have h0 : AL.get d q.counts = none := (AL.get_eq_none_iff _ _).2 h
  simp [removeOne, h0, decr, phantom, AL.set_of_not_mem h]

theorem removeOne_phantom {q : IncProblem V} {d d' : DVId} (h : d' ∈ AL.keys q.counts) :
    (phantom d q).removeOne d' = (q.removeOne d').mapState (phantom d) := by
  have hs : ∀ x, d' ∈ AL.keys (AL.set d' x q.counts) := fun x => by rw [AL.keys_set_of_mem h]; exact h
  simp only [removeOne, phantom, al_get_append h, al_set_append h, al_del_append (hs _)]
  split
  · split
    · split
      · split
        · rfl
        · rfl
      · rfl
    · rfl
  · rfl

theorem removeList_phantom {U : DVId → Option (Nat × GroupId)} {q : IncProblem V} (hi : CInv U q) (d : DVId)
    (es : List DVId) (hn : es.Nodup) (hbn : (AL.keys q.backup).Nodup) (hc : ∀ x ∈ es, ∃ c g, U x = some (c + 1, g)) :
    removeList (phantom d q) es = (removeList q es).mapState (phantom d) := by
  induction es generalizing U q with
  | nil => rfl
  | cons x es ih =>
    obtain ⟨hx, hn'⟩ := List.nodup_cons.1 hn
    obtain ⟨c, g, hU⟩ := hc x (by simp)
    obtain ⟨q1, h1, hi1, -, h3, -⟩ := removeOne_ok hi x hbn c g hU
    have hk : x ∈ AL.keys q.counts := (AL.mem_keys_iff _ _).2 ⟨_, (hi.cnt x).trans hU⟩
    rw [removeList, removeOne_phantom hk, removeList, h1]
    simp only [Res.mapState, Res.bind]
    refine ih hi1 hn' h3 (fun y hy => ?_)
    have hne : y ≠ x := by rintro rfl; exact hx hy
    simp only [upd, hne, if_false]
    exact hc y (by simp [hy])

theorem removeList_append (q : IncProblem V) (l m : List DVId) :
    removeList q (l ++ m) = (removeList q l).bind fun _ q' => removeList q' m := by
  induction l generalizing q with
  | nil => rfl
  | cons x l ih =>
    simp only [List.cons_append, removeList]
    cases q.removeOne x <;> simp [Res.bind, ih]

/-- Removal over a list with one variable the problem does not know. -/
theorem removeList_unknown {U : DVId → Option (Nat × GroupId)} {q : IncProblem V} (hi : CInv U q) {d : DVId} (hd : U d = none)
    (l m : List DVId) (hn : (l ++ m).Nodup) (hdn : d ∉ l) (hbn : (AL.keys q.backup).Nodup)
    (hc : ∀ x ∈ l ++ m, ∃ c g, U x = some (c + 1, g)) :
    removeList q (l ++ d :: m) = (removeList q (l ++ m)).mapState (phantom d) := by
  obtain ⟨hn1, hn2, hdis⟩ := List.nodup_append.1 hn
  obtain ⟨q1, h1, hi1, -, h3, -⟩ := removeList_ok hi l hn1 hbn (fun x hx => hc x (by simp [hx]))
  rw [removeList_append, removeList_append, h1]
  simp only [Res.bind]
  have hu : remU U l d = none := by simp [remU, hdn, hd]
  rw [removeList, removeOne_fresh ((AL.get_eq_none_iff _ _).1 ((hi1.cnt d).trans hu))]
  simp only [Res.bind]
  refine removeList_phantom hi1 d m hn2 h3 (fun x hx => ?_)
  have hxl : x ∉ l := fun h => hdis x h x hx rfl
  simp only [remU, hxl, if_false]
  exact hc x (by simp [hx])

/-- The enumeration of a batch with one more variable. -/
theorem withDV_elems {h : Heap V} {p : OptProblem V} (hi : BInv h p) {d : DVId} (hd : d ∉ AL.keys p.lookup) (g : GroupId) :
    ∃ l m, AL.keys (elems (p.withDV d g)) = l ++ d :: m ∧ (l ++ m).Nodup ∧ d ∉ l ∧ d ∉ m ∧
      ∀ x, x ∈ l ++ m ↔ x ∈ AL.keys p.lookup := by
  have hi' := hi.withDV hd g
  have hp := elems_perm hi'
  have hk : AL.keys (p.withDV d g).lookup = AL.keys p.lookup ++ [d] := by simp [OptProblem.withDV, AL.keys]
  have hmem : d ∈ AL.keys (elems (p.withDV d g)) := by rw [hp.mem_iff, hk]; simp
  obtain ⟨l, m, hlm⟩ := List.append_of_mem hmem
  have hnd := elems_nodup hi'
  rw [hlm] at hnd hp
  have hp2 : (d :: (l ++ m)).Perm (d :: AL.keys p.lookup) :=
    List.perm_middle.symm.trans (hp.trans (by rw [hk]; exact List.perm_append_comm))
  have hp3 := hp2.cons_inv
  have hnd2 : (d :: (l ++ m)).Nodup := List.perm_middle.nodup_iff.1 hnd
  obtain ⟨h1, h2⟩ := List.nodup_cons.1 hnd2
  simp only [List.mem_append, not_or] at h1
  exact ⟨l, m, hlm, h2, h1.1, h1.2, fun x => hp3.mem_iff⟩

/-- `designVariable` of a problem with a phantom. -/
theorem phantom_designVariable {w : World V} (hw : WInv w) (d : DVId) :
    (phantom d w.inc).numDesignVariables = (enumDV w.inc.groups w.inc.ordering).length + 1 ∧
    (∀ i (hi : i < (enumDV w.inc.groups w.inc.ordering).length),
      (phantom d w.inc).designVariable i = .ok (enumDV w.inc.groups w.inc.ordering)[i] ()) ∧
    (phantom d w.inc).designVariable (enumDV w.inc.groups w.inc.ordering).length =
      match w.inc.getGroup 0 with | .ok (x :: _) _ => .ok x () | _ => .throw .stdOutOfRange () := by
  have hp : (enumDV w.inc.groups w.inc.ordering).Perm (AL.keys w.inc.counts) :=
    hw.g.enum_perm hw.nd (fun d => by
      rw [AL.mem_keys_iff]
      cases AL.get d w.inc.counts <;> simp)
  have hlen : (enumDV w.inc.groups w.inc.ordering).length = w.inc.counts.length := by
    rw [hp.length_eq]; simp [AL.keys]
  refine ⟨by simp [phantom, numDesignVariables, hlen], fun i hi => ?_, ?_⟩
  · have := inc_designVariable_eq hw i
    rw [List.getElem?_eq_getElem hi] at this
    unfold IncProblem.designVariable at this ⊢
    rw [if_neg (by omega)] at this
    rw [if_neg (by simp [phantom]; omega)]
    exact this
  · have hscan : ∀ (gs : List GroupId) (run : Nat), (∀ g ∈ gs, g ∈ AL.keys w.inc.groups) → ∀ idx,
        idx = run + (enumDV w.inc.groups gs).length → scanGroups w.inc.groups idx gs run = .ok (0, 0) () := by
      intro gs
      induction gs with
      | nil => intro run _ idx h; simp [scanGroups, enumDV] at h ⊢; omega
      | cons g gs ih =>
        intro run hk idx h
        obtain ⟨l, hl⟩ := (AL.mem_keys_iff _ _).1 (hk g (by simp))
        simp only [enumDV, List.flatMap_cons, hl, Option.getD_some, List.length_append] at h
        rw [scanGroups, hl]
        simp only
        rw [if_neg (by omega)]
        exact ih _ (fun g' hg' => hk g' (by simp [hg'])) idx (by rw [h]; simp only [enumDV]; omega)
    unfold IncProblem.designVariable
    rw [if_neg (by simp [phantom, hlen])]
    have h1 := hscan w.inc.ordering 0 (fun g hg => (hw.g.ord g).1 hg) (enumDV w.inc.groups w.inc.ordering).length (by omega)
    simp only [phantom, h1, Res.bind, groupElem, IncProblem.getGroup]
    cases h0 : AL.get 0 w.inc.groups with
    | none => rfl
    | some l =>
      cases l with
      | nil => exact absurd rfl (hw.g.ne 0 [] h0)
      | cons x l => rfl

/-- every batch keeps its own invariant, whatever is called and whatever it returns. -/
theorem step_batches {w w' : World V} (op : IOp V) (ok : Bool) (hw : ∀ b, BInv w.heap (w.B b))
    (hs : (op.step w).outcome = some (ok, w')) : ∀ b, BInv w'.heap (w'.B b) := by
  cases op with
  | add b => obtain ⟨q, -, rfl⟩ := outcome_mapState hs; exact hw
  | removeIdx i => obtain ⟨q, -, rfl⟩ := outcome_mapState hs; exact hw
  | remove b => obtain ⟨q, -, rfl⟩ := outcome_mapState hs; exact hw
  | clear => simp [IOp.step, Res.outcome] at hs; rw [← hs.2]; exact hw
  | setOrdering o => obtain ⟨q, -, rfl⟩ := outcome_mapState hs; exact hw
  | permProblems perm => obtain ⟨q, -, rfl⟩ := outcome_mapState hs; exact hw
  | permDV perm g => obtain ⟨q, -, rfl⟩ := outcome_mapState hs; exact hw
  | save => simp [IOp.step, Res.outcome] at hs; rw [← hs.2]; exact hw
  | restore =>
    simp [IOp.step, Res.outcome] at hs; rw [← hs.2]
    exact fun b => (hw b).heap (restoreLoop_rest _ _).2.2.1
  | batch bb bop =>
    obtain ⟨s, h1, rfl⟩ := outcome_mapState hs
    have heff := BOp.step_eff (s := (w.B bb, w.heap)) (hw bb) h1
    intro b'
    simp only
    split
    · exact heff.inv (hw bb)
    · exact (hw b').heap heff.etDVs

/-- Every world a client program can produce: no restriction on the calls. -/
inductive AnyReach (h0 : Heap V) : World V → Prop where
  | init : AnyReach h0 (World.init h0)
  | step {w w' : World V} (op : IOp V) (ok : Bool) : AnyReach h0 w → (op.step w).outcome = some (ok, w') → AnyReach h0 w'

theorem AnyReach.batches {h0 : Heap V} {w : World V} (h : AnyReach h0 w) : ∀ b, BInv w.heap (w.B b) := by
  induction h with
  | init => exact fun _ => BInv.empty _
  | step op ok _ hs ih => exact step_batches op ok ih hs

theorem AnyReach.of_reach {h0 : Heap V} {w : World V} (h : Reach h0 w) : AnyReach h0 w := by
  induction h with
  | init => exact .init
  | step op ok _ hs _ _ ih => exact .step op ok ih hs

/-- The world in which batch `b` has got the variable `d` in group `g`. -/
def World.giveDV (w : World V) (b : BatchId) (d : DVId) (g : GroupId) : World V :=
  { w with B := fun b' => if b' = b then (w.B b).withDV d g else w.B b' }

theorem addDV_step {w w' : World V} {b : BatchId} {d : DVId} {g : GroupId}
    (h : (IOp.batch b (.addDV (some d) g)).step w = .ok () w') : d ∉ AL.keys (w.B b).lookup ∧ w' = w.giveDV b d g := by
  simp only [IOp.step, BOp.step, addDV_eq] at h
  split at h
  · simp [Res.mapState] at h
  · rename_i hd
    simp [Res.mapState] at h
    exact ⟨hd, h.symm⟩

/-- Removal of a batch that got a variable the problem does not know. -/
theorem remove_giveDV_unknown {w : World V} (hw : WInv w) {b : BatchId} {idx : Nat} (hidx : w.inc.problems[idx]? = some b)
    {d : DVId} (hd : AL.get d w.inc.counts = none) (hdb : d ∉ AL.keys (w.B b).lookup) (g : GroupId) :
    ∃ q', w.inc.removeIdx (w.giveDV b d g).B idx = .ok () (phantom d q') ∧ RemResult w b idx q' := by
  have hb := hw.batches b
  have hmem : b ∈ w.inc.problems := List.mem_of_getElem? hidx
  obtain ⟨l, m, hlm, hnd, hdl, hdm, hlmm⟩ := withDV_elems hb hdb g
  have hknown : ∀ x ∈ l ++ m, ∃ c g, AL.get x w.inc.counts = some (c + 1, g) := by
    intro x hx
    have hpos := useCount_pos hmem ((hlmm x).1 hx)
    cases hc : AL.get x w.inc.counts with
    | none => rw [(hw.zero x).1 hc] at hpos; omega
    | some y =>
      obtain ⟨c, g⟩ := y
      have := (hw.some x c g hc).1
      exact ⟨c - 1, g, by simp; omega⟩
  have hun := removeList_unknown hw.c hd l m hnd hdl hw.bkn hknown
  obtain ⟨q1, h1, hi1, h2, h3, h4, h5, h6⟩ := removeList_ok hw.c (l ++ m) hnd hw.bkn hknown
  have hU : remU (fun d => AL.get d w.inc.counts) (l ++ m) = remU (fun d => AL.get d w.inc.counts) (AL.keys (elems (w.B b))) := by
    funext x
    simp only [remU, hlmm x, (elems_perm hb).mem_iff]
  refine ⟨{ q1 with problems := q1.problems.eraseIdx idx }, ?_,
    ⟨⟨hi1.nd, by rw [← hU]; exact hi1.cnt, by rw [← hU]; exact hi1.g⟩, by simp [h2], h3, ?_, h5, ?_⟩⟩
  · have hb' := hb.withDV hdb g
    simp only [IncProblem.removeIdx, hidx, World.giveDV, if_true]
    rw [removeLoop_eq hb' _ 0 _ (by rw [elems_length hb']; omega), List.drop_zero, hlm, hun, h1]
    rfl
  · intro x
    simp only [h4, hi1.cnt, hlmm x]
  · intro x
    simp only [h6, hi1.cnt]

/-- Removal of a batch that got a variable the problem already has. -/
theorem remove_giveDV_known {w : World V} (hw : WInv w) {b : BatchId} {idx : Nat} (hidx : w.inc.problems[idx]? = some b)
    {d : DVId} {c : Nat} {gd : GroupId} (hd : AL.get d w.inc.counts = some (c, gd)) (hdb : d ∉ AL.keys (w.B b).lookup)
    (g : GroupId) :
    ∃ q', w.inc.removeIdx (w.giveDV b d g).B idx = .ok () q' ∧ q'.problems = w.inc.problems.eraseIdx idx ∧
      AL.get d q'.counts = decU (some (c, gd)) := by
  have hb := hw.batches b
  have hb' := hb.withDV hdb g
  have hmem : b ∈ w.inc.problems := List.mem_of_getElem? hidx
  have hkey : ∀ x ∈ AL.keys (elems ((w.B b).withDV d g)), ∃ c g, AL.get x w.inc.counts = some (c + 1, g) := by
    intro x hx
    have hcase : 0 < useCount w.B w.inc.problems x := by
      rw [(elems_perm hb').mem_iff] at hx
      have : x ∈ AL.keys (w.B b).lookup ∨ x = d := by simpa [OptProblem.withDV, AL.keys] using hx
      rcases this with h | rfl
      · exact useCount_pos hmem h
      · by_contra h0
        rw [(hw.zero x).2 (by omega)] at hd; simp at hd
    cases hc : AL.get x w.inc.counts with
    | none => rw [(hw.zero x).1 hc] at hcase; omega
    | some y =>
      obtain ⟨c, g⟩ := y
      have := (hw.some x c g hc).1
      exact ⟨c - 1, g, by simp; omega⟩
  obtain ⟨q1, h1, hi1, h2, h3, h4, h5, h6⟩ := removeList_ok hw.c _ (elems_nodup hb') hw.bkn hkey
  refine ⟨{ q1 with problems := q1.problems.eraseIdx idx }, ?_, by simp [h2], ?_⟩
  · simp only [IncProblem.removeIdx, hidx, World.giveDV, if_true]
    rw [removeLoop_eq hb' _ 0 _ (by rw [elems_length hb']; omega), List.drop_zero, h1]
    rfl
  · simp only [hi1.cnt]
    have : d ∈ AL.keys (elems ((w.B b).withDV d g)) := by
      rw [(elems_perm hb').mem_iff]; simp [OptProblem.withDV, AL.keys]
    simp [remU, this, hd]

end Verif
