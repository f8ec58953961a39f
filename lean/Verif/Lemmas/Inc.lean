import Verif.Model.IncProblem
import Verif.Lemmas.Batch

namespace Verif
variable {V : Type _}

open IncProblem

/-- Invariant of the counts, groups and ordering relative to a use function. -/
structure CInv (U : DVId → Option (Nat × GroupId)) (q : IncProblem V) : Prop where
  nd : (AL.keys q.counts).Nodup
  cnt : ∀ d, AL.get d q.counts = U d
  g : GInv (fun d => (U d).map Prod.snd) q.groups q.ordering

def upd {W : Type _} (U : DVId → W) (d : DVId) (x : W) : DVId → W := fun d' => if d' = d then x else U d'

/-- use count, zero when absent -/
def cntOf (x : Option (Nat × GroupId)) : Nat := (x.map Prod.fst).getD 0

theorem addOne_ok {U : DVId → Option (Nat × GroupId)} {q : IncProblem V} (hi : CInv U q) (d : DVId) (g : GroupId)
    (hc : ∀ c g', U d = some (c, g') → g' = g) (hr : cntOf (U d) + 1 < 2 ^ 64) :
    ∃ q', q.addOne d g = .ok () q' ∧ CInv (upd U d (some (cntOf (U d) + 1, g))) q' ∧
      q'.problems = q.problems ∧ q'.backup = q.backup ∧
      q'.ordering = (if AL.has g q.groups then q.ordering else q.ordering ++ [g]) ∧
      ∀ g', (AL.get g' q'.groups).getD [] =
        (AL.get g' q.groups).getD [] ++ (if g' = g ∧ U d = none then [d] else []) := by
  unfold IncProblem.addOne
  set q1 := if q.isGroupInProblem g then q else { q with ordering := q.ordering ++ [g] } with hq1
  have e1 : q1.counts = q.counts := by rw [hq1]; split <;> rfl
  have e2 : q1.groups = q.groups := by rw [hq1]; split <;> rfl
  have e3 : q1.problems = q.problems := by rw [hq1]; split <;> rfl
  have e4 : q1.backup = q.backup := by rw [hq1]; split <;> rfl
  have e5 : q1.ordering = if AL.has g q.groups then q.ordering else q.ordering ++ [g] := by
    rw [hq1]; by_cases h : AL.has g q.groups = true <;> simp [IncProblem.isGroupInProblem, h]
  simp only [e1, hi.cnt d, e2]
  cases hU : U d with
  | none =>
    refine ⟨_, rfl, ⟨?_, ?_, ?_⟩, e3, e4, e5, ?_⟩
    · exact AL.nodup_keys_set hi.nd
    · intro d'
      simp only [AL.get_set, hi.cnt, upd, cntOf]
      by_cases h : d = d'
      · subst h; simp
      · simp [h, Ne.symm h]
    · have := hi.g.insert (d := d) (g := g) (by simp [hU]) (o := q1.ordering) e5
      have hfun : (fun d_1 => Option.map Prod.snd (upd U d (some (cntOf none + 1, g)) d_1)) =
          fun d' => if d' = d then some g else Option.map Prod.snd (U d') := by
        funext d'; simp only [upd]; split <;> rfl
      rw [hfun]
      exact this
    · intro g'
      simp only [AL.get_set]
      by_cases h : g = g'
      · subst h; simp
      · simp [h, Ne.symm h]
  | some cg =>
    obtain ⟨c, g'⟩ := cg
    have := hc c g' hU
    subst this
    have hinc : incr c = c + 1 := by
      simp only [hU, cntOf, Option.map_some, Option.getD_some] at hr
      rw [incr, if_neg (by omega)]
    simp only [hinc, ne_eq, not_true_eq_false, if_false]
    have hin : AL.has g' q.groups = true := by
      rw [AL.has_iff]; exact hi.g.has d g' (by simp [hU])
    have e6 : q1.ordering = q.ordering := by rw [e5, if_pos hin]
    refine ⟨_, rfl, ⟨?_, ?_, ?_⟩, e3, e4, e5, ?_⟩
    · exact AL.nodup_keys_set hi.nd
    · intro d'
      simp only [AL.get_set, hi.cnt, upd, cntOf]
      by_cases h : d = d'
      · subst h; simp
      · simp [h, Ne.symm h]
    · have hfun : (fun d_1 => Option.map Prod.snd (upd U d (some (cntOf (some (c, g')) + 1, g')) d_1)) =
          fun d' => Option.map Prod.snd (U d') := by
        funext d'; simp only [upd]; split
        · rename_i h; subst h; simp [hU]
        · rfl
      rw [hfun]
      simp only [e6]
      exact hi.g
    · intro g''; simp

theorem addOne_mismatch {q : IncProblem V} {d : DVId} {g c g'}
    (hc : AL.get d q.counts = some (c, g')) (hne : g' ≠ g) :
    q.addOne d g = .throw .invalidOperation
      (if q.isGroupInProblem g then q else { q with ordering := q.ordering ++ [g] }) := by
  unfold IncProblem.addOne
  by_cases h : q.isGroupInProblem g = true <;> simp [h, hc, hne]

/-- `add`'s loop over a list. -/
def addList (q : IncProblem V) : List (DVId × GroupId) → Res (IncProblem V) Unit
  | [] => .ok () q
  | (d, g) :: es => (q.addOne d g).bind fun _ q' => addList q' es

/-- `remove`'s loop over a list. -/
def removeList (q : IncProblem V) : List DVId → Res (IncProblem V) Unit
  | [] => .ok () q
  | d :: es => (q.removeOne d).bind fun _ q' => removeList q' es

/-- Variables of a batch in enumeration order with their groups. -/
def elems (p : OptProblem V) : List (DVId × GroupId) :=
  (enumDV p.groups p.ordering).map fun d => (d, (AL.get d p.lookup).getD 0)

theorem elems_keys (p : OptProblem V) : AL.keys (elems p) = enumDV p.groups p.ordering := by
  simp [AL.keys, elems, Function.comp_def]

theorem elems_perm {h : Heap V} {p : OptProblem V} (hi : BInv h p) :
    (AL.keys (elems p)).Perm (AL.keys p.lookup) := by
  rw [elems_keys]; exact hi.g.enum_perm hi.lk (fun d => AL.mem_keys_iff _ _)

theorem elems_nodup {h : Heap V} {p : OptProblem V} (hi : BInv h p) : (AL.keys (elems p)).Nodup := by
  rw [elems_keys]; exact hi.g.nodup_enum

theorem elems_length {h : Heap V} {p : OptProblem V} (hi : BInv h p) :
    (elems p).length = p.numDesignVariables := by
  have := (elems_perm hi).length_eq
  simpa [AL.keys, OptProblem.numDesignVariables] using this

theorem elems_get {h : Heap V} {p : OptProblem V} (hi : BInv h p) (d : DVId) :
    AL.get d (elems p) = AL.get d p.lookup := by
  cases hx : AL.get d p.lookup with
  | none =>
    rw [AL.get_eq_none_iff] at hx ⊢
    rwa [(elems_perm hi).mem_iff]
  | some g =>
    apply AL.get_of_mem (elems_nodup hi)
    simp only [elems, List.mem_map, Prod.mk.injEq]
    exact ⟨d, (hi.g.mem_enum d).2 ⟨g, hx⟩, rfl, by simp [hx]⟩

theorem addLoop_eq {h : Heap V} {p : OptProblem V} (hi : BInv h p) (n i : Nat) (q : IncProblem V)
    (hn : i + n = (elems p).length) : addLoop p n i q = addList q ((elems p).drop i) := by
  induction n generalizing i q with
  | zero => rw [List.drop_of_length_le (by omega)]; rfl
  | succ n ih =>
    have hlt : i < (elems p).length := by omega
    rw [addLoop, designVariable_eq hi]
    have hlt' : i < (enumDV p.groups p.ordering).length := by simpa [elems] using hlt
    rw [List.getElem?_eq_getElem hlt']
    simp only
    rw [List.drop_eq_getElem_cons hlt]
    have he : (elems p)[i] = ((enumDV p.groups p.ordering)[i],
        (AL.get ((enumDV p.groups p.ordering)[i]) p.lookup).getD 0) := by simp [elems]
    obtain ⟨g, hg⟩ := (hi.g.mem_enum _).1 (List.getElem_mem hlt')
    rw [he, addList]
    simp only [OptProblem.getGroupId, hg, Option.getD_some]
    congr 1
    funext _ q'
    exact ih (i+1) q' (by omega)

theorem removeLoop_eq {h : Heap V} {p : OptProblem V} (hi : BInv h p) (n i : Nat) (q : IncProblem V)
    (hn : i + n = (elems p).length) : removeLoop p n i q = removeList q ((AL.keys (elems p)).drop i) := by
  rw [elems_keys]
  induction n generalizing i q with
  | zero =>
    rw [List.drop_of_length_le (by simp [elems] at hn; omega)]; rfl
  | succ n ih =>
    have hlt' : i < (enumDV p.groups p.ordering).length := by simp [elems] at hn; omega
    rw [removeLoop, designVariable_eq hi]
    rw [List.getElem?_eq_getElem hlt']
    simp only
    rw [List.drop_eq_getElem_cons hlt', removeList]
    congr 1
    funext _ q'
    exact ih (i+1) q' (by omega)

/-- Uses after adding a list of variables. -/
def addU (U : DVId → Option (Nat × GroupId)) (es : List (DVId × GroupId)) : DVId → Option (Nat × GroupId) :=
  fun d => match AL.get d es with
    | none => U d
    | some g => some (cntOf (U d) + 1, g)

/-- Append a group unless it is listed. -/
def insNew (g : GroupId) (o : List GroupId) : List GroupId := if g ∈ o then o else o ++ [g]

/-- Append the groups not listed yet, one after the other. -/
def insAll : List GroupId → List GroupId → List GroupId
  | [], o => o
  | g :: gs, o => insAll gs (insNew g o)

theorem insAll_append (a b o : List GroupId) : insAll (a ++ b) o = insAll b (insAll a o) := by
  induction a generalizing o with
  | nil => rfl
  | cons g a ih => simp [insAll, ih]

theorem insAll_const (l : List GroupId) (g : GroupId) (o : List GroupId) (h : ∀ x ∈ l, x = g) (hne : l ≠ []) :
    insAll l o = insNew g o := by
  have hin : g ∈ insNew g o := by unfold insNew; split <;> simp_all
  have hrest : ∀ l : List GroupId, (∀ x ∈ l, x = g) → insAll l (insNew g o) = insNew g o := by
    intro l
    induction l with
    | nil => intro _; rfl
    | cons x l ih =>
      intro hl
      have hx := hl x (by simp); subst hx
      rw [insAll, insNew, if_pos hin]
      exact ih (fun y hy => hl y (by simp [hy]))
  cases l with
  | nil => exact absurd rfl hne
  | cons x l =>
    have hx := h x (by simp); subst hx
    rw [insAll]
    exact hrest l (fun y hy => h y (by simp [hy]))

theorem insAll_nodup (l o : List GroupId) (hn : l.Nodup) : insAll l o = o ++ l.filter (fun g => decide (g ∉ o)) := by
  induction l generalizing o with
  | nil => simp [insAll]
  | cons g l ih =>
    obtain ⟨hg, hn⟩ := List.nodup_cons.1 hn
    rw [insAll, ih _ hn, insNew]
    by_cases h : g ∈ o
    · simp [h]
    · simp only [h, if_false, List.filter_cons, not_false_eq_true, decide_true, if_true, List.append_assoc,
        List.singleton_append]
      congr 2
      apply List.filter_congr
      intro x hx
      have : x ≠ g := by rintro rfl; exact hg hx
      simp [this]

theorem addList_ok {U : DVId → Option (Nat × GroupId)} {q : IncProblem V} (hi : CInv U q)
    (es : List (DVId × GroupId)) (hn : (AL.keys es).Nodup)
    (hc : ∀ d g, (d, g) ∈ es → ∀ c g', U d = some (c, g') → g' = g) (hr : ∀ d g, (d, g) ∈ es → cntOf (U d) + 1 < 2 ^ 64) :
    ∃ q', addList q es = .ok () q' ∧ CInv (addU U es) q' ∧
      q'.problems = q.problems ∧ q'.backup = q.backup ∧
      q'.ordering = insAll (es.map Prod.snd) q.ordering ∧
      ∀ g', (AL.get g' q'.groups).getD [] =
        (AL.get g' q.groups).getD [] ++
          (es.filter fun x => decide (x.2 = g' ∧ U x.1 = none)).map Prod.fst := by
  induction es generalizing U q with
  | nil => exact ⟨q, rfl, (show addU U [] = U from rfl) ▸ hi, rfl, rfl, rfl, by simp⟩
  | cons e es ih =>
    obtain ⟨d, g⟩ := e
    simp only [AL.keys, List.map_cons, List.nodup_cons] at hn
    obtain ⟨q1, h1, hi1, h2, h3, h4, h5⟩ := addOne_ok hi d g (fun c g' h => hc d g (by simp) c g' h) (hr d g (by simp))
    have hne : ∀ x ∈ es, x.1 ≠ d := by
      intro x hx hxd
      exact hn.1 (List.mem_map.2 ⟨x, hx, hxd⟩)
    obtain ⟨q2, k1, ki, k2, k3, k4, k5⟩ := ih hi1 hn.2 (by
      intro d' g' hd' c g'' hU
      have : d' ≠ d := hne _ hd'
      simp only [upd, this, if_false] at hU
      exact hc d' g' (by simp [hd']) c g'' hU)
      (by
        intro d' g' hd'
        have : d' ≠ d := hne _ hd'
        simp only [upd, this, if_false]
        exact hr d' g' (by simp [hd']))
    refine ⟨q2, by rw [addList, h1]; exact k1, ?_, by rw [k2, h2], by rw [k3, h3], ?_, ?_⟩
    · have : addU (upd U d (some (cntOf (U d) + 1, g))) es = addU U ((d, g) :: es) := by
        funext d'
        simp only [addU, AL.get_cons, upd]
        by_cases h : d' = d
        · subst h
          have hno : AL.get d' es = none := (AL.get_eq_none_iff _ _).2 hn.1
          simp [hno]
        · simp [h, Ne.symm h]
      rw [← this]; exact ki
    · rw [k4, h4, List.map_cons, insAll]
      congr 1
      by_cases h : AL.has g q.groups = true
      · rw [if_pos h, insNew, if_pos ((hi.g.ord g).2 ((AL.has_iff _ _).1 h))]
      · rw [if_neg h, insNew, if_neg (fun h' => h ((AL.has_iff _ _).2 ((hi.g.ord g).1 h')))]
    · intro g'
      rw [k5, h5, List.append_assoc]
      congr 1
      rw [List.filter_cons]
      have hf : es.filter (fun x => decide (x.2 = g' ∧ upd U d (some (cntOf (U d) + 1, g)) x.1 = none)) =
          es.filter (fun x => decide (x.2 = g' ∧ U x.1 = none)) := by
        apply List.filter_congr
        intro x hx
        simp [upd, hne x hx]
      rw [hf]
      by_cases h6 : g' = g ∧ U d = none
      · simp [h6]
      · by_cases h7 : g = g'
        · subst h7; simp at h6; simp [h6]
        · simp [h7, Ne.symm h7]

theorem addList_throw {U : DVId → Option (Nat × GroupId)} {q : IncProblem V} (hi : CInv U q)
    (es : List (DVId × GroupId)) (hn : (AL.keys es).Nodup)
    (hc : ∃ d g c g', (d, g) ∈ es ∧ U d = some (c, g') ∧ g' ≠ g)
    (hr : ∀ d g, (d, g) ∈ es → cntOf (U d) + 1 < 2 ^ 64) :
    ∃ q', addList q es = .throw .invalidOperation q' := by
  induction es generalizing U q with
  | nil => simp at hc
  | cons e es ih =>
    obtain ⟨d, g⟩ := e
    simp only [AL.keys, List.map_cons, List.nodup_cons] at hn
    by_cases hd : ∀ c g', U d = some (c, g') → g' = g
    · obtain ⟨q1, h1, hi1, -⟩ := addOne_ok hi d g hd (hr d g (by simp))
      rw [addList, h1]
      refine ih hi1 hn.2 ?_ (by
        intro d' g' hd'
        have : d' ≠ d := fun e => hn.1 (List.mem_map.2 ⟨_, hd', e⟩)
        simp only [upd, this, if_false]
        exact hr d' g' (by simp [hd']))
      obtain ⟨d', g', c, g'', hm, hU, hne⟩ := hc
      have hd' : d' ≠ d := by
        rintro rfl
        rcases List.mem_cons.1 hm with h | h
        · injection h with _ h; subst h; exact hne (hd c g'' hU)
        · exact hn.1 (List.mem_map.2 ⟨_, h, rfl⟩)
      rcases List.mem_cons.1 hm with h | h
      · injection h with h _; exact absurd h hd'
      · exact ⟨d', g', c, g'', h, by simp [upd, hd', hU], hne⟩
    · have : ∃ c g', U d = some (c, g') ∧ g' ≠ g := by
        by_contra hcon
        apply hd
        intro c g' hU
        by_contra hne
        exact hcon ⟨c, g', hU, hne⟩
      obtain ⟨c, g', hU, hne⟩ := this
      rw [addList, addOne_mismatch (hi.cnt d ▸ hU : AL.get d q.counts = some (c, g')) hne]
      exact ⟨_, rfl⟩

/-! ### removal -/

def decU (x : Option (Nat × GroupId)) : Option (Nat × GroupId) :=
  match x with
  | some (c + 2, g) => some (c + 1, g)
  | _ => none

theorem removeOne_ok {U : DVId → Option (Nat × GroupId)} {q : IncProblem V} (hi : CInv U q) (d : DVId)
    (hbn : (AL.keys q.backup).Nodup) (c : Nat) (g : GroupId) (hU : U d = some (c + 1, g)) :
    ∃ q', q.removeOne d = .ok () q' ∧ CInv (upd U d (decU (U d))) q' ∧
      q'.problems = q.problems ∧ (AL.keys q'.backup).Nodup ∧
      (∀ d', AL.get d' q'.backup = if d' = d ∧ c = 0 then none else AL.get d' q.backup) ∧
      q'.ordering = q.ordering.filter (fun g' => decide (g' ∈ AL.keys q'.groups)) ∧
      ∀ g', (AL.get g' q'.groups).getD [] =
        ((AL.get g' q.groups).getD []).filter fun x => (upd U d (decU (U d)) x).isSome := by
  unfold IncProblem.removeOne
  simp only [hi.cnt d, hU, Option.getD_some, decr, Nat.add_one_ne_zero, if_false, Nat.add_sub_cancel]
  have hdk : d ∈ AL.keys q.counts := (AL.mem_keys_iff _ _).2 ⟨_, hi.cnt d ▸ hU⟩
  have hgk : g ∈ AL.keys q.groups := hi.g.has d g (by simp [hU])
  obtain ⟨l, hl⟩ := (AL.mem_keys_iff _ _).1 hgk
  have hdl : d ∈ l := (hi.g.mem g l hl d).2 (by simp [hU])
  have hln := hi.g.nodupL g l hl
  cases c with
  | succ c =>
    simp only [Nat.add_one_ne_zero, if_false, and_false]
    have hsame : (fun d' => Option.map Prod.snd (upd U d (decU (some (c + 1 + 1, g))) d')) =
        fun d' => Option.map Prod.snd (U d') := by
      funext d'; simp only [upd]; split
      · rename_i h; subst h; simp [hU, decU]
      · rfl
    refine ⟨_, rfl, ⟨AL.nodup_keys_set hi.nd, ?_, ?_⟩, rfl, hbn, fun _ => rfl, ?_, ?_⟩
    · intro d'
      simp only [AL.get_set, hi.cnt, upd]
      by_cases h : d = d'
      · subst h; simp [decU]
      · simp [h, Ne.symm h]
    · rw [hsame]; exact hi.g
    · simp only
      rw [List.filter_eq_self.2]
      intro g' hg'
      simpa using (hi.g.ord g').1 hg'
    · intro g'
      simp only
      rw [List.filter_eq_self.2]
      intro x hx
      cases hg' : AL.get g' q.groups with
      | none => rw [hg'] at hx; simp at hx
      | some l' =>
        rw [hg'] at hx
        have := (hi.g.mem g' l' hg' x).1 hx
        simp only [upd]
        split
        · simp [decU]
        · cases hUx : U x with
          | none => simp [hUx] at this
          | some y => rfl
  | zero =>
    simp only [if_true, hl, Option.getD_some, hdl, and_true]
    have hU' : decU (some (0 + 1, g)) = none := rfl
    simp only [hU']
    have hgrp : ∀ d', (Option.map Prod.snd (upd U d none d')) =
        if d' = d then none else Option.map Prod.snd (U d') := by
      intro d'; simp only [upd]; split <;> rfl
    have hcnts : ∀ d', AL.get d' (AL.del d (AL.set d (0, g) q.counts)) = upd U d none d' := by
      intro d'
      rw [AL.get_del (AL.nodup_keys_set hi.nd), AL.get_set, hi.cnt]
      simp only [upd]
      by_cases h : d = d'
      · subst h; simp
      · simp [h, Ne.symm h]
    have hndc : (AL.keys (AL.del d (AL.set d (0, g) q.counts))).Nodup :=
      AL.nodup_keys_del (AL.nodup_keys_set hi.nd)
    -- membership of the reduced list
    have hmemE : ∀ d', d' ∈ l.erase d ↔ d' ≠ d ∧ d' ∈ l := fun d' => hln.mem_erase_iff
    have hfilt : l.erase d = l.filter fun x => (upd U d none x).isSome := by
      rw [hln.erase_eq_filter]
      apply List.filter_congr
      intro x hx
      have := (hi.g.mem g l hl x).1 hx
      by_cases h : x = d
      · simp [h, upd]
      · simp only [upd, h, if_false]
        cases hUx : U x with
        | none => simp [hUx] at this
        | some y => simp [h]
    have hother : ∀ g' l', g' ≠ g → AL.get g' q.groups = some l' →
        l' = l'.filter fun x => (upd U d none x).isSome := by
      intro g' l' hne hl'
      rw [List.filter_eq_self.2]
      intro x hx
      have h1 := (hi.g.mem g' l' hl' x).1 hx
      have : x ≠ d := by
        rintro rfl
        rw [hU] at h1; simp at h1; exact hne h1.symm
      simp only [upd, this, if_false]
      cases hUx : U x with
      | none => simp [hUx] at h1
      | some y => rfl
    have hbk : ∀ d', AL.get d' (AL.del d q.backup) = if d' = d then none else AL.get d' q.backup := by
      intro d'
      rw [AL.get_del hbn]
      by_cases h : d = d'
      · simp [h]
      · simp [h, Ne.symm h]
    by_cases hemp : l.erase d = []
    · have hgo : g ∈ q.ordering := (hi.g.ord g).2 hgk
      simp only [hemp, List.isEmpty_nil, if_true, hgo]
      have hgn : (AL.keys (AL.set g ([] : List DVId) q.groups)).Nodup := AL.nodup_keys_set hi.g.nodupG
      have hkeys : ∀ g', g' ∈ AL.keys (AL.del g (AL.set g [] q.groups)) ↔ g' ≠ g ∧ g' ∈ AL.keys q.groups := by
        intro g'
        rw [AL.keys_del, hgn.mem_erase_iff, AL.mem_keys_set]
        constructor
        · rintro ⟨a, b | b⟩; exacts [absurd b a, ⟨a, b⟩]
        · rintro ⟨a, b⟩; exact ⟨a, Or.inr b⟩
      have hget : ∀ g', AL.get g' (AL.del g (AL.set g [] q.groups)) =
          if g' = g then none else AL.get g' q.groups := by
        intro g'
        rw [AL.get_del hgn, AL.get_set]
        by_cases h : g = g'
        · subst h; simp
        · simp [h, Ne.symm h]
      refine ⟨_, rfl, ⟨hndc, hcnts, ?_⟩, rfl, AL.nodup_keys_del hbn, hbk, ?_, ?_⟩
      · refine ⟨AL.nodup_keys_del hgn, hi.g.nodupO.erase _, ?_, ?_, ?_, ?_, ?_⟩
        · intro g'
          rw [hkeys, hi.g.nodupO.mem_erase_iff, hi.g.ord]
        · intro g' l' hl'
          simp only [hget] at hl'
          split at hl'
          · simp at hl'
          · exact hi.g.ne g' l' hl'
        · intro g' l' hl'
          simp only [hget] at hl'
          split at hl'
          · simp at hl'
          · exact hi.g.nodupL g' l' hl'
        · intro g' l' hl' d'
          simp only [hget] at hl'
          split at hl'
          · simp at hl'
          · rename_i hne
            rw [hgrp, hi.g.mem g' l' hl']
            by_cases h : d' = d
            · subst h; simp [hU, Ne.symm hne]
            · simp [h]
        · intro d' g' h
          rw [hgrp] at h
          rw [hkeys]
          split at h
          · simp at h
          · rename_i hne
            refine ⟨?_, hi.g.has d' g' h⟩
            rintro rfl
            have h1 : d' ∈ l := (hi.g.mem g' l hl d').2 h
            have h2 : d' ∈ l.erase d := (hmemE d').2 ⟨hne, h1⟩
            rw [hemp] at h2; simp at h2
      · simp only [hkeys]
        rw [hi.g.nodupO.erase_eq_filter]
        apply List.filter_congr
        intro g' hg'
        have := (hi.g.ord g').1 hg'
        by_cases h : g' = g <;> simp [h, this]
      · intro g'
        simp only [hget]
        by_cases h : g' = g
        · subst h; simp only [if_true, hl, Option.getD_none, Option.getD_some]; rw [← hfilt, hemp]
        · simp only [h, if_false]
          cases hl' : AL.get g' q.groups with
          | none => rfl
          | some l' => exact hother g' l' h hl'
    · have hemp' : (l.erase d).isEmpty = false := by simpa using hemp
      simp only [hemp', Bool.false_eq_true, if_false]
      have hk : AL.keys (AL.set g (l.erase d) q.groups) = AL.keys q.groups := AL.keys_set_of_mem hgk _
      have hget : ∀ g', AL.get g' (AL.set g (l.erase d) q.groups) =
          if g' = g then some (l.erase d) else AL.get g' q.groups := by
        intro g'
        rw [AL.get_set]
        by_cases h : g = g'
        · simp [h]
        · simp [h, Ne.symm h]
      refine ⟨_, rfl, ⟨hndc, hcnts, ?_⟩, rfl, AL.nodup_keys_del hbn, hbk, ?_, ?_⟩
      · refine ⟨by rw [hk]; exact hi.g.nodupG, hi.g.nodupO, by rw [hk]; exact hi.g.ord, ?_, ?_, ?_, ?_⟩
        · intro g' l' hl'
          rw [hget] at hl'
          split at hl'
          · injection hl' with hl'; subst hl'; exact hemp
          · exact hi.g.ne g' l' hl'
        · intro g' l' hl'
          rw [hget] at hl'
          split at hl'
          · injection hl' with hl'; subst hl'; exact hln.erase _
          · exact hi.g.nodupL g' l' hl'
        · intro g' l' hl' d'
          rw [hget] at hl'
          rw [hgrp]
          split at hl'
          · rename_i e; subst e
            injection hl' with hl'; subst hl'
            rw [hmemE, hi.g.mem g' l hl]
            by_cases h : d' = d <;> simp [h]
          · rename_i hne
            rw [hi.g.mem g' l' hl']
            by_cases h : d' = d
            · subst h; simp [hU, Ne.symm hne]
            · simp [h]
        · intro d' g' h
          rw [hgrp] at h
          rw [hk]
          split at h
          · simp at h
          · exact hi.g.has d' g' h
      · simp only [hk]
        rw [List.filter_eq_self.2]
        intro g' hg'
        simpa using (hi.g.ord g').1 hg'
      · intro g'
        simp only [hget]
        by_cases h : g' = g
        · subst h; simp only [if_true, hl, Option.getD_some]; exact hfilt
        · simp only [h, if_false]
          cases hl' : AL.get g' q.groups with
          | none => rfl
          | some l' => exact hother g' l' h hl'

/-- Uses after removing a list of variables. -/
def remU (U : DVId → Option (Nat × GroupId)) (es : List DVId) : DVId → Option (Nat × GroupId) :=
  fun d => if d ∈ es then decU (U d) else U d

theorem remU_isSome {U : DVId → Option (Nat × GroupId)} {es : List DVId} {d : DVId}
    (h : (remU U es d).isSome = true) : (U d).isSome = true := by
  unfold remU at h
  split at h
  · unfold decU at h; split at h
    · rename_i h'; simp [h']
    · simp at h
  · exact h

theorem removeList_ok {U : DVId → Option (Nat × GroupId)} {q : IncProblem V} (hi : CInv U q)
    (es : List DVId) (hn : es.Nodup) (hbn : (AL.keys q.backup).Nodup)
    (hc : ∀ d ∈ es, ∃ c g, U d = some (c + 1, g)) :
    ∃ q', removeList q es = .ok () q' ∧ CInv (remU U es) q' ∧
      q'.problems = q.problems ∧ (AL.keys q'.backup).Nodup ∧
      (∀ d', AL.get d' q'.backup = if d' ∈ es ∧ remU U es d' = none then none else AL.get d' q.backup) ∧
      q'.ordering = q.ordering.filter (fun g' => decide (g' ∈ AL.keys q'.groups)) ∧
      ∀ g', (AL.get g' q'.groups).getD [] =
        ((AL.get g' q.groups).getD []).filter fun x => (remU U es x).isSome := by
  induction es generalizing U q with
  | nil =>
    have : remU U [] = U := by funext d; simp [remU]
    rw [this]
    refine ⟨q, rfl, hi, rfl, hbn, by simp, ?_, ?_⟩
    · rw [List.filter_eq_self.2]
      intro g' hg'
      simpa using (hi.g.ord g').1 hg'
    · intro g'
      rw [List.filter_eq_self.2]
      intro x hx
      cases hl' : AL.get g' q.groups with
      | none => rw [hl'] at hx; simp at hx
      | some l' =>
        rw [hl'] at hx
        have h1 := (hi.g.mem g' l' hl' x).1 hx
        cases hUx : U x with
        | none => simp [hUx] at h1
        | some y => rfl
  | cons d es ih =>
    obtain ⟨hd, hn'⟩ := List.nodup_cons.1 hn
    obtain ⟨c, g, hU⟩ := hc d (by simp)
    obtain ⟨q1, h1, hi1, h2, h3, h4, h5, h6⟩ := removeOne_ok hi d hbn c g hU
    have hne : ∀ x ∈ es, x ≠ d := by rintro x hx rfl; exact hd hx
    obtain ⟨q2, k1, ki, k2, k3, k4, k5, k6⟩ := ih hi1 hn' h3 (by
      intro d' hd'
      simp only [upd, hne d' hd', if_false]
      exact hc d' (by simp [hd']))
    have hrem : remU (upd U d (decU (U d))) es = remU U (d :: es) := by
      funext d'
      simp only [remU, upd, List.mem_cons]
      by_cases h : d' = d
      · subst h; simp [hd]
      · simp [h]
    rw [hrem] at ki k4 k6
    refine ⟨q2, by rw [removeList, h1]; exact k1, ki, by rw [k2, h2], k3, ?_, ?_, ?_⟩
    · intro d'
      rw [k4, h4]
      have hrd : remU U (d :: es) d = decU (U d) := by simp [remU]
      by_cases h : d' = d
      · subst h
        simp only [hd, false_and, if_false, List.mem_cons, true_or, true_and, hrd, hU]
        cases c with
        | zero => simp [decU]
        | succ c => simp [decU]
      · by_cases h' : d' ∈ es <;> simp [h, h']
    · rw [k5, h5, List.filter_filter]
      apply List.filter_congr
      intro g' hg'
      by_cases h : g' ∈ AL.keys q2.groups
      · have : g' ∈ AL.keys q1.groups := by
          obtain ⟨l, hl⟩ := (AL.mem_keys_iff _ _).1 h
          have hne' := ki.g.ne g' l hl
          have := k6 g'
          rw [hl, Option.getD_some] at this
          cases hx : AL.get g' q1.groups with
          | none => rw [hx] at this; simp at this; exact absurd this hne'
          | some l' => exact (AL.mem_keys_iff _ _).2 ⟨l', hx⟩
        simp [h, this]
      · simp [h]
    · intro g'
      rw [k6, h6, List.filter_filter]
      apply List.filter_congr
      intro x hx
      cases hr : (remU U (d :: es) x).isSome with
      | false => simp
      | true =>
        rw [← hrem] at hr
        simp [remU_isSome hr]

end Verif
