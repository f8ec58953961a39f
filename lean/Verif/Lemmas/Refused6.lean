import Verif.Lemmas.Refused5
import Mathlib.Data.List.Perm.Subperm

/-! Helper lemmas for property C118 (continued): more listed groups than groups. -/

namespace Verif
open IncProblem
variable {V : Type _}

/-- every group is listed, counting repetitions. -/
def Listed (q : IncProblem V) : Prop := (AL.keys q.groups).Subperm q.ordering

/-- more entries are listed than groups exist. -/
def Overfull (q : IncProblem V) : Prop := Listed q ∧ (AL.keys q.groups).length < q.ordering.length

theorem addOne_listed {q q' : IncProblem V} {d : DVId} {g : GroupId} (h : (q.addOne d g).state? = some q') :
    (Listed q → Listed q') ∧ (Overfull q → Overfull q') := by
  unfold IncProblem.addOne at h
  simp only at h
  have hsub : ∀ {l m : List GroupId} (x), l.Subperm m → l.Subperm (m ++ [x]) := fun x hl =>
    hl.trans (List.sublist_append_left _ _).subperm
  by_cases hg : q.isGroupInProblem g = true
  · have hk : g ∈ AL.keys q.groups := (AL.has_iff _ _).1 hg
    rw [if_pos hg] at h
    split at h
    · simp only [Res.state?, Option.some.injEq] at h
      subst h
      simp only [Overfull, Listed, AL.keys_set_of_mem hk]
      exact ⟨id, id⟩
    · split at h
      · simp only [Res.state?, Option.some.injEq] at h; subst h; exact ⟨id, id⟩
      · simp only [Res.state?, Option.some.injEq] at h; subst h; exact ⟨id, id⟩
  · have hk : g ∉ AL.keys q.groups := fun hk => hg ((AL.has_iff _ _).2 hk)
    rw [if_neg hg] at h
    split at h
    · simp only [Res.state?, Option.some.injEq] at h
      subst h
      simp only [Overfull, Listed, AL.keys_set, if_neg hk, List.length_append, List.length_singleton]
      have hs : (AL.keys q.groups).Subperm q.ordering → (AL.keys q.groups ++ [g]).Subperm (q.ordering ++ [g]) :=
        fun hl => (List.subperm_append_right _).2 hl
      exact ⟨hs, fun ⟨a, b⟩ => ⟨hs a, by omega⟩⟩
    · split at h
      · simp only [Res.state?, Option.some.injEq] at h
        subst h
        simp only [Overfull, Listed, List.length_append, List.length_singleton]
        exact ⟨hsub g, fun ⟨a, b⟩ => ⟨hsub g a, by omega⟩⟩
      · simp only [Res.state?, Option.some.injEq] at h
        subst h
        simp only [Overfull, Listed, List.length_append, List.length_singleton]
        exact ⟨hsub g, fun ⟨a, b⟩ => ⟨hsub g a, by omega⟩⟩

theorem removeOne_overfull {q q' : IncProblem V} {d : DVId} (h0 : Overfull q) (h : (q.removeOne d).state? = some q') :
    Overfull q' := by
  unfold IncProblem.removeOne at h
  simp only at h
  split at h
  · split at h
    · rename_i hmem
      have hk : ((AL.get d q.counts).getD (0, 0)).2 ∈ AL.keys q.groups := by
        rw [AL.mem_keys_iff]
        cases hg : AL.get ((AL.get d q.counts).getD (0, 0)).2 q.groups with
        | none => rw [hg] at hmem; simp at hmem
        | some l => exact ⟨l, rfl⟩
      split at h
      · split at h
        · rename_i hgo
          simp only [Res.state?, Option.some.injEq] at h
          subst h
          obtain ⟨h1, h2⟩ := h0
          simp only [Overfull, Listed, AL.keys_del, AL.keys_set_of_mem hk]
          refine ⟨List.Subperm.erase _ h1, ?_⟩
          rw [List.length_erase_of_mem hk, List.length_erase_of_mem hgo]
          have := List.length_pos_of_mem hk
          omega
        · simp [Res.state?] at h
      · simp only [Res.state?, Option.some.injEq] at h
        subst h
        simpa only [Overfull, Listed, AL.keys_set_of_mem hk] using h0
    · simp [Res.state?] at h
  · simp only [Res.state?, Option.some.injEq] at h
    subst h; exact h0

theorem Overfull.setOrdering {q : IncProblem V} (h : Overfull q) (o : List GroupId) :
    q.setGroupsOrdering o = .throw .outOfBound q := by
  unfold IncProblem.setGroupsOrdering
  split
  · rfl
  · rename_i hl
    rw [if_neg]
    intro hc
    obtain ⟨h1, h2, -⟩ := (checkOrdering_iff' q [] o).1 hc
    have := (List.Nodup.subperm h2 h1).length_le
    have := h.2
    simp only [ne_eq, Decidable.not_not] at hl
    omega

theorem Overfull.permDV {q q' : IncProblem V} {perm : List Nat} {g : GroupId} (h : Overfull q)
    (hs : (q.permuteDesignVariables perm g).state? = some q') : Overfull q' := by
  unfold IncProblem.permuteDesignVariables at hs
  cases hg : AL.get g q.groups with
  | none => rw [hg] at hs; simp only [Res.state?, Option.some.injEq] at hs; subst hs; exact h
  | some l =>
    rw [hg] at hs
    obtain ⟨l', -, rfl⟩ := state?_mapState hs
    have hk : g ∈ AL.keys q.groups := (AL.mem_keys_iff _ _).2 ⟨l, hg⟩
    simpa only [Overfull, Listed, AL.keys_set_of_mem hk] using h

theorem Overfull.istep {w w' : World V} {op : IOp V} (hop : op ≠ .clear) (h : Overfull w.inc)
    (hs : (op.step w).state? = some w') : Overfull w'.inc := by
  have hprob : ∀ (q : IncProblem V) ps, Overfull q → Overfull { q with problems := ps } := fun _ _ h => h
  cases op with
  | add b =>
    obtain ⟨q', h1, rfl⟩ := state?_mapState hs
    exact add_pres hprob (fun _ _ q d g q' _ h0 h1 => (addOne_listed h1).2 h0) h h1
  | removeIdx i =>
    obtain ⟨q', h1, rfl⟩ := state?_mapState hs
    exact removeIdx_pres hprob (fun q d q' h0 h1 => removeOne_overfull h0 h1) h h1
  | remove b =>
    obtain ⟨q', h1, rfl⟩ := state?_mapState hs
    exact remove_pres hprob (fun q d q' h0 h1 => removeOne_overfull h0 h1) h h1
  | clear => exact absurd rfl hop
  | setOrdering o =>
    obtain ⟨q', h1, rfl⟩ := state?_mapState hs
    rw [h.setOrdering o] at h1
    simp only [Res.state?, Option.some.injEq] at h1
    subst h1; exact h
  | permProblems perm =>
    obtain ⟨q', h1, rfl⟩ := state?_mapState hs
    obtain ⟨l, -, rfl⟩ := state?_mapState h1
    exact hprob _ _ h
  | permDV perm g =>
    obtain ⟨q', h1, rfl⟩ := state?_mapState hs
    exact h.permDV h1
  | save => simp only [IOp.step, Res.state?, Option.some.injEq] at hs; subst hs; exact h
  | restore => simp only [IOp.step, Res.state?, Option.some.injEq] at hs; subst hs; exact h
  | batch b bop =>
    obtain ⟨t, -, rfl⟩ := state?_mapState hs
    exact h

theorem Overfull.runAny : ∀ {ops : List (IOp V)} {w w' : World V} {tr : List Bool}, (∀ op ∈ ops, op ≠ .clear) → Overfull w.inc →
    IOp.runAny ops w = .ok tr w' → Overfull w'.inc
  | [], w, w', tr, _, h, hr => by simp only [IOp.runAny, Res.ok.injEq] at hr; rw [← hr.2]; exact h
  | op :: ops, w, w', tr, hc, h, hr => by
    have key : ∀ w1, (op.step w).state? = some w1 → ∀ tr', IOp.runAny ops w1 = .ok tr' w' → Overfull w'.inc :=
      fun w1 h1 tr' h2 => Overfull.runAny (fun o ho => hc o (List.mem_cons_of_mem _ ho))
        (h.istep (hc op List.mem_cons_self) h1) h2
    rw [IOp.runAny] at hr
    cases hs : op.step w with
    | ok u w1 =>
      rw [hs] at hr key; simp only at hr
      cases h2 : IOp.runAny ops w1 with
      | ok tr' w2 =>
        rw [h2] at hr
        simp only [Res.bind, Res.ok.injEq] at hr
        exact key w1 rfl tr' (by rw [h2, hr.2])
      | throw e w2 => rw [h2] at hr; simp [Res.bind] at hr
      | ub => rw [h2] at hr; simp [Res.bind] at hr
      | diverge => rw [h2] at hr; simp [Res.bind] at hr
    | throw e w1 =>
      rw [hs] at hr key; simp only at hr
      cases h2 : IOp.runAny ops w1 with
      | ok tr' w2 =>
        rw [h2] at hr
        simp only [Res.bind, Res.ok.injEq] at hr
        exact key w1 rfl tr' (by rw [h2, hr.2])
      | throw e w2 => rw [h2] at hr; simp [Res.bind] at hr
      | ub => rw [h2] at hr; simp [Res.bind] at hr
      | diverge => rw [h2] at hr; simp [Res.bind] at hr
    | ub => rw [hs] at hr; simp at hr
    | diverge => rw [hs] at hr; simp at hr

theorem add_overfull {w : World V} (hw : WInv w) {b : Option BatchId} {q' : IncProblem V} {g : GroupId}
    (h : (w.inc.add w.B b).state? = some q') (hg : Ghost g q') : Overfull q' := by
  have h0 : Listed w.inc := List.Nodup.subperm hw.g.nodupG fun g hg => (hw.g.ord g).2 hg
  have h1 : Listed q' := add_pres (P := Listed) (fun _ _ h => h) (fun _ _ q d g q' _ h0 h1 => (addOne_listed h1).1 h0) h0 h
  refine ⟨h1, ?_⟩
  rcases Nat.lt_or_ge (AL.keys q'.groups).length q'.ordering.length with h2 | h2
  · exact h2
  · exact absurd ((h1.perm_of_length_le h2).mem_iff.2 hg.1) hg.2

end Verif

namespace Verif
open IncProblem
variable {V : Type _}

theorem addOne_grows {d : DVId} {g : GroupId} (q q' : IncProblem V) (d1 : DVId) (g1 : GroupId)
    (h0 : (AL.get d q.counts).map Prod.snd = some g) (h : (q.addOne d1 g1).state? = some q') :
    (AL.get d q'.counts).map Prod.snd = some g := by
  unfold IncProblem.addOne at h
  simp only at h
  have e1 : (if q.isGroupInProblem g1 then q else { q with ordering := q.ordering ++ [g1] }).counts = q.counts := by
    split <;> rfl
  generalize (if q.isGroupInProblem g1 then q else { q with ordering := q.ordering ++ [g1] }) = q1 at h e1
  rw [e1] at h
  cases hx : AL.get d1 q.counts with
  | none =>
    rw [hx] at h
    simp only [Res.state?, Option.some.injEq] at h
    subst h
    have hne : d1 ≠ d := by rintro rfl; rw [hx] at h0; simp at h0
    simp only; rw [AL.get_set_ne hne]; exact h0
  | some cg =>
    obtain ⟨c', g2⟩ := cg
    rw [hx] at h
    simp only at h
    split at h
    · simp only [Res.state?, Option.some.injEq] at h; subst h; rw [e1]; exact h0
    · simp only [Res.state?, Option.some.injEq] at h
      subst h
      simp only
      by_cases hd : d1 = d
      · subst hd; rw [hx] at h0; rw [AL.get_set_self]; exact h0
      · rw [AL.get_set_ne hd]; exact h0

end Verif
