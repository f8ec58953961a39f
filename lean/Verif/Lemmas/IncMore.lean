import Verif.Lemmas.World

namespace Verif
variable {V : Type _}
open IncProblem

theorem add_throw_rest {w : World V} {b : BatchId} {e : Exc} {q' : IncProblem V}
    (h : w.inc.add w.B (some b) = .throw e q') : q'.problems = w.inc.problems ∧ q'.backup = w.inc.backup :=
  add_any w.B w.inc b (ok := false) (by rw [h]; rfl)

theorem GInv.mem_ordering_iff {grp : DVId → Option GroupId} {groups : List (GroupId × List DVId)}
    {o : List GroupId} (h : GInv grp groups o) (g : GroupId) : g ∈ o ↔ ∃ d, grp d = some g := by
  rw [h.ord, AL.mem_keys_iff]
  constructor
  · rintro ⟨l, hl⟩
    obtain ⟨d, hd⟩ := List.exists_mem_of_ne_nil l (h.ne g l hl)
    exact ⟨d, (h.mem g l hl d).1 hd⟩
  · rintro ⟨d, hd⟩
    exact (AL.mem_keys_iff _ _).1 (h.has d g hd)

theorem GInv.get_of_getD {grp : DVId → Option GroupId} {groups groups' : List (GroupId × List DVId)}
    {o o' : List GroupId} (h : GInv grp groups o) (h' : GInv grp groups' o') (g : GroupId)
    (e : (AL.get g groups').getD [] = (AL.get g groups).getD []) : AL.get g groups' = AL.get g groups := by
  cases h1 : AL.get g groups' with
  | none =>
    cases h2 : AL.get g groups with
    | none => rfl
    | some l => rw [h1, h2] at e; simp at e; exact absurd e (h.ne g l h2)
  | some l' =>
    cases h2 : AL.get g groups with
    | none => rw [h1, h2] at e; simp at e; exact absurd e (h'.ne g l' h1)
    | some l => rw [h1, h2] at e; simpa using e

/-! ### add followed by remove -/

theorem add_remove {w : World V} (hw : WInv w) {b : BatchId} (hnot : b ∉ w.inc.problems) {q' : IncProblem V}
    (hadd : w.inc.add w.B (some b) = .ok () q') :
    ∃ q'', q'.remove w.B (some b) = .ok () q'' ∧ WInv { w with inc := q'' } ∧
      q''.problems = w.inc.problems ∧ (∀ d, AL.get d q''.counts = AL.get d w.inc.counts) ∧
      (∀ g, AL.get g q''.groups = AL.get g w.inc.groups) ∧ q''.ordering = w.inc.ordering ∧
      (∀ d, AL.get d q''.backup = if d ∈ AL.keys (w.B b).lookup ∧ AL.get d w.inc.counts = none then none
        else AL.get d w.inc.backup) := by
  have ha : Addable w.B w.inc (w.B b) := by
    by_contra hc
    obtain ⟨e, q1, h1, -⟩ := add_not_ok hw hc
    rw [h1] at hadd; simp at hadd
  obtain ⟨q1, h1, hr⟩ := add_ok hw ha
  rw [h1] at hadd
  simp only [Res.ok.injEq, true_and] at hadd
  subst hadd
  have hw1 := hr.inv hw ha
  have hfind : q1.findProblem b = some w.inc.problems.length := by
    simp only [IncProblem.findProblem, hr.problems]
    rw [List.findIdx?_append]
    have : List.findIdx? (fun x => x == b) w.inc.problems = none := by
      rw [List.findIdx?_eq_none_iff]
      intro x hx
      simp only [beq_eq_false_iff_ne, ne_eq]
      rintro rfl; exact hnot hx
    rw [this]; simp
  have hidx : ({ w with inc := q1 } : World V).inc.problems[w.inc.problems.length]? = some b := by
    simp [hr.problems]
  obtain ⟨q2, h2, hr2⟩ := removeIdx_ok hw1 hidx
  have hw2 := hr2.inv hw1 hidx
  have hcnt : ∀ d, AL.get d q2.counts = AL.get d w.inc.counts := by
    intro d
    rw [hr2.counts hw1]
    simp only [hr.c.cnt, addU, elems_get (hw.batches b)]
    by_cases hd : d ∈ AL.keys (w.B b).lookup
    · obtain ⟨g, hg⟩ := (AL.mem_keys_iff _ _).1 hd
      simp only [hd, if_true, hg]
      cases hc : AL.get d w.inc.counts with
      | none => simp [cntOf, decU]
      | some x =>
        obtain ⟨c, g'⟩ := x
        have e1 := ha.1 d g hg c g' hc
        have e2 := (hw.some d c g' hc).1
        have e3 : useCount w.B w.inc.problems d ≠ 0 := by
          intro h0
          rw [(hw.zero d).2 h0] at hc; simp at hc
        subst e1
        obtain ⟨c, rfl⟩ : ∃ k, c = k + 1 := ⟨c - 1, by omega⟩
        simp [cntOf, decU]
    · have hg : AL.get d (w.B b).lookup = none := (AL.get_eq_none_iff _ _).2 hd
      simp [hd, hg]
  have hgrp : (fun d => (AL.get d q2.counts).map Prod.snd) = fun d => (AL.get d w.inc.counts).map Prod.snd := by
    funext d; rw [hcnt]
  have hg2 := hw2.g
  simp only [hgrp] at hg2
  have hget : ∀ g, AL.get g q2.groups = AL.get g w.inc.groups := by
    intro g
    apply hw.g.get_of_getD hg2
    rw [hr2.groups, hr.groups, List.filter_append]
    have e1 : ((AL.get g w.inc.groups).getD []).filter (fun x => (AL.get x q2.counts).isSome) =
        (AL.get g w.inc.groups).getD [] := by
      rw [List.filter_eq_self]
      intro x hx
      cases hl : AL.get g w.inc.groups with
      | none => rw [hl] at hx; simp at hx
      | some l =>
        rw [hl] at hx
        have := (hw.g.mem g l hl x).1 hx
        rw [hcnt]
        cases hc : AL.get x w.inc.counts with
        | none => rw [hc] at this; simp at this
        | some y => rfl
    have e2 : ∀ L : List (DVId × GroupId), ((L.filter fun x => decide (x.2 = g ∧ AL.get x.1 w.inc.counts = none)).map
        Prod.fst).filter (fun x => (AL.get x q2.counts).isSome) = [] := by
      intro L
      rw [List.filter_eq_nil_iff]
      intro x hx
      obtain ⟨y, hy, rfl⟩ := List.mem_map.1 hx
      have := (List.mem_filter.1 hy).2
      simp only [decide_eq_true_eq] at this
      rw [hcnt, this.2]; simp
    rw [e1, e2, List.append_nil]
  refine ⟨q2, ?_, hw2, ?_, hcnt, hget, ?_, ?_⟩
  · simp only [IncProblem.remove, hfind]; exact h2
  · rw [hr2.problems]
    simp [hr.problems, List.eraseIdx_append_of_length_le]
  · rw [hr2.ordering]
    simp only [hr.ordering, List.filter_append]
    have hk : ∀ g, g ∈ AL.keys q2.groups ↔ g ∈ w.inc.ordering := by
      intro g
      rw [hw.g.ord, AL.mem_keys_iff, AL.mem_keys_iff, hget]
    rw [List.filter_eq_self.2, List.filter_eq_nil_iff.2, List.append_nil]
    · intro g hg
      have := (List.mem_filter.1 hg).2
      simpa [hk] using this
    · intro g hg; simpa [hk] using hg
  · intro d
    rw [hr2.backup, hcnt]
    simp [hr.backup]

/-! ### histories as executable lists -/

/-- Executable regularity. -/
def IOp.regularB (op : IOp V) (w : World V) (ok : Bool) : Bool :=
  match op with
  | .add (some _) => ok
  | .batch b bop => !decide (b ∈ w.inc.problems) || !bop.restructures || !ok ||
      (match bop with
        | .addET (some e) => decide (w.inc.problems.count b = 1) && w.inc.problems.all fun b' => !(w.B b').isETInProblem e
        | _ => false)
  | _ => true

theorem IOp.regularB_iff {op : IOp V} {w : World V} {ok : Bool} (h : op.regularB w ok = true) :
    op.Regular w ok := by
  cases op with
  | add b => cases b <;> simp_all [IOp.regularB, IOp.Regular]
  | batch b bop =>
    simp only [IOp.regularB, Bool.or_eq_true, Bool.not_eq_true', decide_eq_false_iff_not] at h
    intro hb
    rcases h with ((h | h) | h) | h
    · exact absurd hb h
    · exact Or.inl h
    · exact Or.inr (Or.inl h)
    · refine Or.inr (Or.inr ?_)
      split at h
      · rename_i e
        simp only [Bool.and_eq_true, decide_eq_true_eq, List.all_eq_true, Bool.not_eq_true'] at h
        exact ⟨e, rfl, h.1, h.2⟩
      · simp at h
  | _ => trivial

/-- Run a regular history (`none` when it is not regular or a call does not come back). -/
def IOp.exec : List (IOp V) → World V → Option (World V)
  | [], w => some w
  | op :: ops, w =>
    match (op.step w).outcome with
    | some (ok, w') => if op.regularB w ok then IOp.exec ops w' else none
    | none => none

/-- Several regular steps. -/
inductive Steps (P : IOp V → Prop) : World V → World V → Prop where
  | refl (w) : Steps P w w
  | step {w w' w'' : World V} (op : IOp V) (ok : Bool) : (op.step w).outcome = some (ok, w') →
      op.Regular w ok → P op → Steps P w' w'' → Steps P w w''

theorem steps_of_exec {ops : List (IOp V)} {w w' : World V} (h : IOp.exec ops w = some w') (P : IOp V → Prop)
    (hP : ∀ op ∈ ops, P op) : Steps P w w' := by
  induction ops generalizing w with
  | nil => simp [IOp.exec] at h; subst h; exact .refl _
  | cons op ops ih =>
    rw [IOp.exec] at h
    split at h
    · rename_i ok w1 h1
      split at h
      · rename_i h2
        exact .step op ok h1 (IOp.regularB_iff h2) (hP op (by simp)) (ih h fun o ho => hP o (by simp [ho]))
      · simp at h
    · simp at h

theorem ReachP.steps {P : IOp V → Prop} {h0 : Heap V} {w w' : World V} (h : ReachP P h0 w) (hs : Steps P w w') :
    ReachP P h0 w' := by
  induction hs with
  | refl => exact h
  | step op ok h1 h2 h3 _ ih => exact ih (.step op ok h h1 h2 h3)

theorem Steps.inv {P : IOp V → Prop} {w w' : World V} (hs : Steps P w w') (hw : WInv w) : WInv w' := by
  induction hs with
  | refl => exact hw
  | step op ok h1 h2 h3 _ ih => exact ih (hw.step h1 h2)

theorem reach_of_exec {ops : List (IOp V)} {h0 : Heap V} {w : World V}
    (h : IOp.exec ops (World.init h0) = some w) : Reach h0 w :=
  ReachP.steps .init (steps_of_exec h _ (fun _ _ => trivial))

end Verif
