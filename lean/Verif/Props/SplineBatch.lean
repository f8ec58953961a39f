import Verif.Lemmas.SplineBatch
import Verif.Props.Batch

/-! Property C99: batches with splines. -/

namespace Verif
variable {V : Type _}
namespace SplineProblem

/-- Specification: batch `p'` is batch `p` with the variables `l` put into group `g`, in this order, and nothing else. -/
structure Took (l : List DVId) (g : GroupId) (p p' : OptProblem V) : Prop where
  mem : ∀ d, p'.isDVInProblem d = (p.isDVInProblem d || decide (d ∈ l))
  num : p'.numDesignVariables = p.numDesignVariables + l.length
  groupOf : ∀ d, p.isDVInProblem d = false → d ∈ l → p'.getGroupId d = .ok g ()
  groupOld : ∀ d, d ∉ l → p'.getGroupId d = p.getGroupId d
  group : l ≠ [] → p'.getGroup g = .ok ((match p.getGroup g with | .ok m _ => m | _ => []) ++ l) ()
  others : ∀ g', g' ≠ g ∨ l = [] → p'.getGroup g' = p.getGroup g'
  ordering : p'.ordering = if l = [] ∨ p.isGroupInProblem g then p.ordering else p.ordering ++ [g]
  terms : p'.errorTerms = p.errorTerms ∧ p'.etLookup = p.etLookup
  saved : p'.backup = p.backup

/-- Specification: heap `h'` is heap `h` with the variables `l` active. -/
def Activated (l : List DVId) (h h' : Heap V) : Prop :=
  (∀ d, h'.active d = (h.active d || decide (d ∈ l))) ∧ h'.minDim = h.minDim ∧ h'.params = h.params ∧
    h'.etDVs = h.etDVs ∧ h'.etDim = h.etDim

theorem activate_spec (l : List DVId) (h : Heap V) : Activated l h (h.activate l) := by
  refine ⟨fun d => ?_, rfl, rfl, rfl, rfl⟩
  by_cases hd : d ∈ l <;> simp [Heap.activate, hd]

theorem get_append_map {l : List DVId} {g : GroupId} {m : List (DVId × GroupId)} (d : DVId) :
    AL.get d (m ++ l.map (·, g)) = match AL.get d m with
      | some x => some x
      | none => if d ∈ l then some g else none := by
  induction m with
  | nil =>
    induction l with
    | nil => simp
    | cons a l ih =>
      simp only [List.nil_append, List.map_cons] at ih ⊢
      rw [AL.get_cons, ih]
      by_cases h : a = d
      · simp [h]
      · by_cases h2 : d ∈ l <;> simp [h, h2, Ne.symm h]
  | cons a m ih =>
    obtain ⟨a1, a2⟩ := a
    rw [List.cons_append, AL.get_cons, AL.get_cons, ih]
    by_cases h : a1 = d <;> simp [h]

theorem withDVs_spec (l : List DVId) (g : GroupId) (p : OptProblem V) : Took l g p (p.withDVs g l) := by
  have hg := groups_withDVs g l p
  have hk : ∀ d, AL.get d (p.withDVs g l).lookup = match AL.get d p.lookup with
      | some x => some x
      | none => if d ∈ l then some g else none := by
    intro d; rw [lookup_withDVs, get_append_map]
  refine ⟨?_, by simp [OptProblem.numDesignVariables, lookup_withDVs], ?_, ?_, ?_, ?_, ?_,
    ⟨(rest_withDVs g l p).1, (rest_withDVs g l p).2.1⟩, (rest_withDVs g l p).2.2⟩
  · intro d
    simp only [OptProblem.isDVInProblem, AL.has, hk d]
    cases AL.get d p.lookup with
    | some x => simp
    | none => by_cases h : d ∈ l <;> simp [h]
  · intro d h1 h2
    simp only [OptProblem.isDVInProblem, AL.has] at h1
    simp only [OptProblem.getGroupId, hk d]
    cases h3 : AL.get d p.lookup with
    | some x => rw [h3] at h1; simp at h1
    | none => simp [h2]
  · intro d h1
    simp only [OptProblem.getGroupId, hk d]
    cases h3 : AL.get d p.lookup with
    | some x => rfl
    | none => simp [h1]
  · intro hl
    have e : AL.get g (p.withDVs g l).groups = some ((AL.get g p.groups).getD [] ++ l) := by
      rw [hg g, if_pos ⟨rfl, hl⟩]
    simp only [OptProblem.getGroup, e]
    cases AL.get g p.groups <;> rfl
  · intro g' h
    have : ¬ (g' = g ∧ l ≠ []) := by
      rintro ⟨h1, h2⟩
      rcases h with h | h
      · exact h h1
      · exact h2 h
    simp only [OptProblem.getGroup, hg g', if_neg this]
  · rw [ordering_withDVs]
    rfl

theorem freshPrefix_split (seen l : List DVId) (h : freshPrefix seen l ≠ l) :
    ∃ d post, l = freshPrefix seen l ++ d :: post ∧ (d ∈ seen ∨ d ∈ freshPrefix seen l) := by
  induction l generalizing seen with
  | nil => simp [freshPrefix] at h
  | cons d l ih =>
    by_cases hd : d ∈ seen
    · exact ⟨d, l, by simp [freshPrefix, hd], Or.inl hd⟩
    · have e : freshPrefix seen (d :: l) = d :: freshPrefix (seen ++ [d]) l := by simp [freshPrefix, hd]
      rw [e] at h ⊢
      obtain ⟨x, post, h1, h2⟩ := ih (seen ++ [d]) (fun h' => h (by rw [h']))
      refine ⟨x, post, by rw [List.cons_append, ← h1], ?_⟩
      rcases h2 with h2 | h2
      · rcases List.mem_append.1 h2 with h3 | h3
        · exact Or.inl h3
        · exact Or.inr (by simp [List.mem_singleton.1 h3])
      · exact Or.inr (by simp [h2])

/-- **C99**: `addSpline` on any batch succeeds exactly if the spline's design variables are distinct and none is in the batch
yet; then all of them are in the given group, in the spline's order, all are active, and the spline is the last of its kind. -/
theorem C99_add_spline (dvs : SplineId → List DVId) (k : SplineKind) (x : SplineId) (g : GroupId) (p : SplineProblem V)
    (h : Heap V) (hn : (dvs x).Nodup) (hd : ∀ d ∈ dvs x, p.base.isDVInProblem d = false) :
    ∃ p' h', addSpline dvs k (some x) g (p, h) = .ok () (p', h') ∧ Took (dvs x) g p.base p'.base ∧
      Activated (dvs x) h h' ∧ p'.splines k = p.splines k ++ [x] ∧ ∀ k', k' ≠ k → p'.splines k' = p.splines k' := by
  have hf : freshPrefix (AL.keys p.base.lookup) (dvs x) = dvs x := by
    rw [freshPrefix_eq_iff]
    exact ⟨hn, fun d hd' => (AL.has_eq_false_iff _ _).1 (hd d hd')⟩
  refine ⟨({ p with base := p.base.withDVs g (dvs x) } : SplineProblem V).push k x, h.activate (dvs x), ?_, ?_, activate_spec _ _, ?_, ?_⟩
  · simp only [addSpline, splineLoop_eq, hf, if_true]
  · cases k <;> exact withDVs_spec _ _ _
  · cases k <;> rfl
  · intro k' hk
    cases k <;> cases k' <;> first | exact absurd rfl hk | rfl

/-- **C99**: otherwise it throws, and what it leaves behind: the spline is not recorded, but the variables before the first
one that is refused stay in the batch. -/
theorem C99_add_spline_fails (dvs : SplineId → List DVId) (k : SplineKind) (x : SplineId) (g : GroupId)
    (p : SplineProblem V) (h : Heap V)
    (hd : ¬ ((dvs x).Nodup ∧ ∀ d ∈ dvs x, p.base.isDVInProblem d = false)) :
    ∃ p' h' pre d post, addSpline dvs k (some x) g (p, h) = .throw .invalidOperation (p', h') ∧
      dvs x = pre ++ d :: post ∧ pre.Nodup ∧ (∀ e ∈ pre, p.base.isDVInProblem e = false) ∧
      (p.base.isDVInProblem d = true ∨ d ∈ pre) ∧
      Took pre g p.base p'.base ∧ Activated (pre ++ [d]) h h' ∧ ∀ k', p'.splines k' = p.splines k' := by
  have hf : freshPrefix (AL.keys p.base.lookup) (dvs x) ≠ dvs x := by
    intro hf
    rw [freshPrefix_eq_iff] at hf
    exact hd ⟨hf.1, fun d hd' => (AL.has_eq_false_iff _ _).2 (hf.2 d hd')⟩
  obtain ⟨d, post, h1, h2⟩ := freshPrefix_split _ _ hf
  obtain ⟨h3, h4⟩ := freshPrefix_nodup (AL.keys p.base.lookup) (dvs x)
  have e : addSpline dvs k (some x) g (p, h) = .throw .invalidOperation
      (({ p with base := p.base.withDVs g (freshPrefix (AL.keys p.base.lookup) (dvs x)) } : SplineProblem V),
        h.activate ((dvs x).take ((freshPrefix (AL.keys p.base.lookup) (dvs x)).length + 1))) := by
    simp only [addSpline, splineLoop_eq, hf, if_false]
  refine ⟨_, _, freshPrefix (AL.keys p.base.lookup) (dvs x), d, post, e, h1, h3,
    fun e he => (AL.has_eq_false_iff _ _).2 (h4 e he), ?_, withDVs_spec _ _ _, ?_, ?_⟩
  · rcases h2 with h2 | h2
    · exact Or.inl ((AL.has_iff _ _).2 h2)
    · exact Or.inr h2
  · have : (dvs x).take ((freshPrefix (AL.keys p.base.lookup) (dvs x)).length + 1) =
        freshPrefix (AL.keys p.base.lookup) (dvs x) ++ [d] := by
      generalize freshPrefix (AL.keys p.base.lookup) (dvs x) = f at h1
      rw [h1, List.take_append]
      simp
    rw [this]
    exact activate_spec _ _
  · intro k'; cases k' <;> rfl

/-- The hypotheses of the two theorems are met: spline 1 has the variables 10, 11, 12. -/
def demoDVs : SplineId → List DVId
  | 1 => [10, 11, 12]
  | 2 => [20, 11, 21]
  | _ => []

example : (demoDVs 1).Nodup ∧ ∀ d ∈ demoDVs 1, (SplineProblem.empty : SplineProblem Nat).base.isDVInProblem d = false := by
  constructor
  · decide
  · intro d _; rfl

/-! ### Histories -/

/-- Specification: what a client program has put into the batch. -/
structure SplineSpec where
  trans : List SplineId
  rot : List SplineId

/-- Effect of one call on the splines listed by the batch. -/
def SplineSpec.step (sp : SplineSpec) (op : SOp V) (accepted : Bool) : SplineSpec :=
  match accepted, op with
  | true, .addSpline .trans (some x) _ => { sp with trans := sp.trans ++ [x] }
  | true, .addSpline .rot (some x) _ => { sp with rot := sp.rot ++ [x] }
  | _, _ => sp

/-- Replay of a program with the recorded outcomes. -/
def SplineSpec.replay : List (SOp V) → List Bool → SplineSpec → SplineSpec
  | op :: ops, b :: tr, sp => SplineSpec.replay ops tr (sp.step op b)
  | _, _, sp => sp

theorem run_cons {dvs : SplineId → List DVId} {op : SOp V} {ops : List (SOp V)} {s t : SplineProblem V × Heap V}
    {tr : List Bool} (h : SOp.run dvs (op :: ops) s = .ok tr t) :
    ∃ b tr' s', tr = b :: tr' ∧ (op.step dvs s).outcome = some (b, s') ∧ SOp.run dvs ops s' = .ok tr' t := by
  rw [SOp.run] at h
  cases hs : op.step dvs s with
  | ok a s' =>
    rw [hs] at h
    simp only at h
    cases hr : SOp.run dvs ops s' with
    | ok tr' t' => rw [hr] at h; simp [Res.bind] at h; exact ⟨true, tr', s', h.1.symm, rfl, by rw [hr, h.2]⟩
    | throw e t' => rw [hr] at h; simp [Res.bind] at h
    | ub => rw [hr] at h; simp [Res.bind] at h
    | diverge => rw [hr] at h; simp [Res.bind] at h
  | throw e s' =>
    rw [hs] at h
    simp only at h
    cases hr : SOp.run dvs ops s' with
    | ok tr' t' => rw [hr] at h; simp [Res.bind] at h; exact ⟨false, tr', s', h.1.symm, rfl, by rw [hr, h.2]⟩
    | throw e t' => rw [hr] at h; simp [Res.bind] at h
    | ub => rw [hr] at h; simp [Res.bind] at h
    | diverge => rw [hr] at h; simp [Res.bind] at h
  | ub => rw [hs] at h; simp at h
  | diverge => rw [hs] at h; simp at h

/-- the base class calls made by the loop of `addSpline`, up to and including the first that throws. -/
def desugar (g : GroupId) (seen : List DVId) : List DVId → List (BOp V)
  | [] => []
  | d :: l => if d ∈ seen then [.setActive d true, .addDV (some d) g]
    else .setActive d true :: .addDV (some d) g :: desugar g (seen ++ [d]) l

theorem desugar_run (g : GroupId) (l : List DVId) (p : OptProblem V) (h : Heap V) :
    ∃ tr b t, (addLoop g l (p, h)).outcome = some (b, t) ∧
      BOp.run (desugar g (AL.keys p.lookup) l) (p, h) = .ok tr t := by
  induction l generalizing p h with
  | nil => exact ⟨[], true, (p, h), rfl, rfl⟩
  | cons d l ih =>
    by_cases hd : d ∈ AL.keys p.lookup
    · refine ⟨[true, false], false, (p, h.setActive d true), ?_, ?_⟩
      · simp [addLoop, addDV_eq, hd, Res.mapState, Res.bind, Res.outcome]
      · simp [desugar, hd, BOp.run, BOp.step, addDV_eq, Res.mapState, Res.bind]
    · obtain ⟨tr, b, t, h1, h2⟩ := ih (p.withDV d g) (h.setActive d true)
      refine ⟨true :: true :: tr, b, t, ?_, ?_⟩
      · simpa [addLoop, addDV_eq, hd, Res.mapState, Res.bind] using h1
      · rw [keys_withDV] at h2
        simp [desugar, hd, BOp.run, BOp.step, addDV_eq, Res.mapState, Res.bind, h2]

theorem addLoop_not_diverge (g : GroupId) (l : List DVId) (s : OptProblem V × Heap V) :
    ∃ b t, (addLoop g l s).outcome = some (b, t) := by
  obtain ⟨tr, b, t, h, -⟩ := desugar_run g l s.1 s.2
  exact ⟨b, t, h⟩

theorem brun_append {ops ops' : List (BOp V)} {s t u : OptProblem V × Heap V} {tr tr' : List Bool}
    (h : BOp.run ops s = .ok tr t) (h' : BOp.run ops' t = .ok tr' u) : BOp.run (ops ++ ops') s = .ok (tr ++ tr') u := by
  induction ops generalizing s tr with
  | nil => simp [BOp.run] at h; obtain ⟨rfl, rfl⟩ := h; exact h'
  | cons op ops ih =>
    obtain ⟨b, tr1, s1, rfl, h1, h2⟩ := BOp.run_cons h
    have h3 := ih h2
    rw [List.cons_append, BOp.run]
    cases hs : op.step s with
    | ok a s' =>
      rw [hs] at h1
      simp only [Res.outcome, Option.some.injEq, Prod.mk.injEq] at h1
      obtain ⟨rfl, rfl⟩ := h1
      simp [h3, Res.bind]
    | throw e s' =>
      rw [hs] at h1
      simp only [Res.outcome, Option.some.injEq, Prod.mk.injEq] at h1
      obtain ⟨rfl, rfl⟩ := h1
      simp [h3, Res.bind]
    | ub => rw [hs] at h1; simp [Res.outcome] at h1
    | diverge => rw [hs] at h1; simp [Res.outcome] at h1

/-- One call as calls of the base class, and its effect on the lists of splines. -/
theorem step_refines {dvs : SplineId → List DVId} {op : SOp V} {s t : SplineProblem V × Heap V} {b : Bool}
    (h : (op.step dvs s).outcome = some (b, t)) (sp : SplineSpec) (h1 : s.1.trans = sp.trans) (h2 : s.1.rot = sp.rot) :
    (∃ ops tr, BOp.run ops (s.1.base, s.2) = .ok tr (t.1.base, t.2)) ∧
      t.1.trans = (sp.step op b).trans ∧ t.1.rot = (sp.step op b).rot := by
  cases op with
  | base op =>
    simp only [SOp.step] at h
    cases hs : op.step (s.1.base, s.2) with
    | ok a u =>
      rw [hs] at h
      simp only [Res.mapState, Res.outcome, Option.some.injEq, Prod.mk.injEq] at h
      obtain ⟨rfl, rfl⟩ := h
      exact ⟨⟨[op], [true], by simp [BOp.run, hs, Res.bind]⟩, h1, h2⟩
    | throw e u =>
      rw [hs] at h
      simp only [Res.mapState, Res.outcome, Option.some.injEq, Prod.mk.injEq] at h
      obtain ⟨rfl, rfl⟩ := h
      exact ⟨⟨[op], [false], by simp [BOp.run, hs, Res.bind]⟩, h1, h2⟩
    | ub => rw [hs] at h; simp [Res.mapState, Res.outcome] at h
    | diverge => rw [hs] at h; simp [Res.mapState, Res.outcome] at h
  | addSpline k x g =>
    cases x with
    | none => simp [SOp.step, addSpline, Res.outcome] at h
    | some x =>
      simp only [SOp.step, addSpline] at h
      obtain ⟨tr, b', u, h3, h4⟩ := desugar_run g (dvs x) s.1.base s.2
      cases hs : addLoop g (dvs x) (s.1.base, s.2) with
      | ok a u' =>
        rw [hs] at h h3
        simp only [Res.outcome, Option.some.injEq, Prod.mk.injEq] at h h3
        obtain ⟨rfl, rfl⟩ := h
        obtain ⟨rfl, rfl⟩ := h3
        refine ⟨⟨desugar g (AL.keys s.1.base.lookup) (dvs x), tr, ?_⟩, ?_⟩
        · rw [h4]; cases k <;> rfl
        · cases k <;> simp [push, SplineSpec.step, h1, h2]
      | throw e u' =>
        rw [hs] at h h3
        simp only [Res.outcome, Option.some.injEq, Prod.mk.injEq] at h h3
        obtain ⟨rfl, rfl⟩ := h
        obtain ⟨rfl, rfl⟩ := h3
        exact ⟨⟨_, tr, h4⟩, h1, h2⟩
      | ub => rw [hs] at h3; simp [Res.outcome] at h3
      | diverge => rw [hs] at h3; simp [Res.outcome] at h3

theorem run_refines (dvs : SplineId → List DVId) (ops : List (SOp V)) (tr : List Bool) (s t : SplineProblem V × Heap V)
    (h : SOp.run dvs ops s = .ok tr t) (sp : SplineSpec) (h1 : s.1.trans = sp.trans) (h2 : s.1.rot = sp.rot) :
    (∃ bops btr, BOp.run bops (s.1.base, s.2) = .ok btr (t.1.base, t.2)) ∧
      t.1.trans = (SplineSpec.replay ops tr sp).trans ∧ t.1.rot = (SplineSpec.replay ops tr sp).rot := by
  induction ops generalizing s tr sp with
  | nil =>
    simp [SOp.run] at h; obtain ⟨rfl, rfl⟩ := h
    exact ⟨⟨[], [], rfl⟩, h1, h2⟩
  | cons op ops ih =>
    obtain ⟨b, tr', s', rfl, h3, h4⟩ := run_cons h
    obtain ⟨⟨o1, t1, hr1⟩, h5, h6⟩ := step_refines h3 sp h1 h2
    obtain ⟨⟨o2, t2, hr2⟩, h7⟩ := ih _ _ h4 _ h5 h6
    exact ⟨⟨o1 ++ o2, t1 ++ t2, brun_append hr1 hr2⟩, h7⟩

/-- **C99**: after every client program, whatever calls threw, the batch lists exactly the splines of the `addSpline` calls
that returned, in the order of the calls, and as a batch it is one a program of the base class calls could have made: C01 to
C06 hold for it. -/
theorem C99_history (dvs : SplineId → List DVId) (h0 : Heap V) (ops : List (SOp V)) (tr : List Bool)
    (p : SplineProblem V) (h : Heap V) (hrun : SOp.run dvs ops (SplineProblem.empty, h0) = .ok tr (p, h)) :
    p.trans = (SplineSpec.replay ops tr ⟨[], []⟩).trans ∧ p.rot = (SplineSpec.replay ops tr ⟨[], []⟩).rot ∧
      ∃ bops btr, BOp.run bops (OptProblem.empty, h0) = .ok btr (p.base, h) := by
  obtain ⟨h1, h2, h3⟩ := run_refines dvs ops tr _ _ hrun ⟨[], []⟩ rfl rfl
  exact ⟨h2, h3, h1⟩

/-- the null pointer is the only way to undefined behaviour. -/
def NullFree (op : SOp V) : Prop := match op with
  | .addSpline _ none _ => False
  | _ => True

/-- **C99**: without null pointers no program is undefined. -/
theorem C99_defined (dvs : SplineId → List DVId) (ops : List (SOp V)) (hn : ∀ op ∈ ops, NullFree op)
    (s : SplineProblem V × Heap V) : SOp.run dvs ops s ≠ .ub := by
  induction ops generalizing s with
  | nil => simp [SOp.run]
  | cons op ops ih =>
    have ih' := ih fun o ho => hn o (by simp [ho])
    rw [SOp.run]
    split
    · rename_i s' _; have := ih' s'; cases hr : SOp.run dvs ops s' <;> simp_all [Res.bind]
    · rename_i s' _; have := ih' s'; cases hr : SOp.run dvs ops s' <;> simp_all [Res.bind]
    · rename_i hs
      cases op with
      | base op => exact absurd (mapState_ub hs) (BOp.step_not_ub _ _)
      | addSpline k x g =>
        have := hn (.addSpline k x g) (by simp)
        cases x with
        | none => exact this.elim
        | some x =>
          obtain ⟨b, t, h1⟩ := addLoop_not_diverge g (dvs x) (s.1.base, s.2)
          simp only [SOp.step, addSpline] at hs
          cases hl : addLoop g (dvs x) (s.1.base, s.2) <;> rw [hl] at hs h1 <;> simp [Res.outcome] at hs h1
    · simp

/-- what a single call keeps, if it is not `clear()`. -/
theorem step_mono {dvs : SplineId → List DVId} {op : SOp V} (hc : op ≠ .base .clear) {s t : SplineProblem V × Heap V} {b : Bool}
    (hi : BInv s.2 s.1.base) (h : (op.step dvs s).outcome = some (b, t)) :
    BInv t.2 t.1.base ∧ (∀ d, s.1.base.isDVInProblem d = true → t.1.base.isDVInProblem d = true) := by
  cases op with
  | base op =>
    simp only [SOp.step] at h
    have hstep : ∃ u, (op.step (s.1.base, s.2)).outcome = some (b, u) ∧ t.1.base = u.1 ∧ t.2 = u.2 := by
      cases hs : op.step (s.1.base, s.2) with
      | ok a u =>
        rw [hs] at h
        simp only [Res.mapState, Res.outcome, Option.some.injEq, Prod.mk.injEq] at h
        obtain ⟨rfl, rfl⟩ := h
        exact ⟨u, rfl, rfl, rfl⟩
      | throw e u =>
        rw [hs] at h
        simp only [Res.mapState, Res.outcome, Option.some.injEq, Prod.mk.injEq] at h
        obtain ⟨rfl, rfl⟩ := h
        exact ⟨u, rfl, rfl, rfl⟩
      | ub => rw [hs] at h; simp [Res.mapState, Res.outcome] at h
      | diverge => rw [hs] at h; simp [Res.mapState, Res.outcome] at h
    obtain ⟨u, h1, h2, h3⟩ := hstep
    have he := BOp.step_eff (s := (s.1.base, s.2)) hi h1
    rw [h2, h3]
    refine ⟨he.inv hi, fun d hd => ?_⟩
    simp only [OptProblem.isDVInProblem, AL.has_iff] at hd ⊢
    cases he with
    | fail => exact hd
    | heap hop hh he => exact hd
    | addDV d' g hop hd' => rw [keys_withDV]; exact List.mem_append_left _ hd
    | addET e hop he hd' => exact hd
    | clear hop => subst hop; exact absurd rfl hc
    | order o hop ho => exact hd
    | permET ok perm hop l hl => exact hd
    | permDV ok perm g hop l l' hg hl => exact hd
    | save hop => exact hd
  | addSpline k x g =>
    cases x with
    | none => simp [SOp.step, addSpline, Res.outcome] at h
    | some x =>
      simp only [SOp.step, addSpline, splineLoop_eq] at h
      have hinv : ∀ f h', f.Nodup → (∀ d ∈ f, d ∉ AL.keys s.1.base.lookup) → h'.etDVs = s.2.etDVs →
          BInv h' (s.1.base.withDVs g f) := fun f h' h1 h2 h3 => (hi.withDVs g f h1 h2).heap h3
      have hmem : ∀ f d, s.1.base.isDVInProblem d = true → (s.1.base.withDVs g f).isDVInProblem d = true := by
        intro f d hd; rw [(withDVs_spec f g s.1.base).mem, hd]; rfl
      obtain ⟨hf1, hf2⟩ := freshPrefix_nodup (AL.keys s.1.base.lookup) (dvs x)
      by_cases hf : freshPrefix (AL.keys s.1.base.lookup) (dvs x) = dvs x
      · simp only [hf, if_true, Res.outcome, Option.some.injEq, Prod.mk.injEq] at h
        obtain ⟨rfl, rfl⟩ := h
        rw [hf] at hf1 hf2
        cases k <;> exact ⟨hinv _ _ hf1 hf2 rfl, hmem _⟩
      · simp only [hf, if_false, Res.outcome, Option.some.injEq, Prod.mk.injEq] at h
        obtain ⟨rfl, rfl⟩ := h
        exact ⟨hinv _ _ hf1 hf2 rfl, hmem _⟩

/-- **C99** (partial: without `clear()`): the design variables of every spline the batch lists are in the batch. -/
theorem C99_contained_partial (dvs : SplineId → List DVId) (h0 : Heap V) (ops : List (SOp V)) (tr : List Bool)
    (p : SplineProblem V) (h : Heap V) (hc : ∀ op ∈ ops, op ≠ .base .clear)
    (hrun : SOp.run dvs ops (SplineProblem.empty, h0) = .ok tr (p, h)) (k : SplineKind) (x : SplineId)
    (hx : x ∈ p.splines k) : ∀ d ∈ dvs x, p.base.isDVInProblem d = true := by
  suffices ∀ (ops : List (SOp V)) tr (s t : SplineProblem V × Heap V), (∀ op ∈ ops, op ≠ .base .clear) →
      BInv s.2 s.1.base → SOp.run dvs ops s = .ok tr t →
      (∀ k x, x ∈ s.1.splines k → ∀ d ∈ dvs x, s.1.base.isDVInProblem d = true) →
      ∀ k x, x ∈ t.1.splines k → ∀ d ∈ dvs x, t.1.base.isDVInProblem d = true from
    this ops tr _ _ hc (BInv.empty _) hrun (by intro k x hx; cases k <;> simp [SplineProblem.empty, splines] at hx) k x hx
  intro ops
  induction ops with
  | nil => intro tr s t _ _ hr hs; simp [SOp.run] at hr; rw [← hr.2]; exact hs
  | cons op ops ih =>
    intro tr s t hc hi hr hs
    obtain ⟨b, tr', s', -, h3, h4⟩ := run_cons hr
    obtain ⟨hi', hmono⟩ := step_mono (hc op (by simp)) hi h3
    refine ih tr' s' t (fun o ho => hc o (by simp [ho])) hi' h4 ?_
    intro k x hx d hd
    by_cases hold : x ∈ s.1.splines k
    · exact hmono d (hs k x hold d hd)
    · cases op with
      | base op =>
        exfalso
        simp only [SOp.step] at h3
        cases hb : op.step (s.1.base, s.2) <;> rw [hb] at h3 <;>
          simp only [Res.mapState, Res.outcome, Option.some.injEq, Prod.mk.injEq, reduceCtorEq] at h3
        all_goals
          obtain ⟨-, rfl⟩ := h3
          cases k <;> exact hold hx
      | addSpline k' x' g =>
        cases x' with
        | none => simp [SOp.step, addSpline, Res.outcome] at h3
        | some x' =>
          simp only [SOp.step, addSpline, splineLoop_eq] at h3
          by_cases hf : freshPrefix (AL.keys s.1.base.lookup) (dvs x') = dvs x'
          · simp only [hf, if_true, Res.outcome, Option.some.injEq, Prod.mk.injEq] at h3
            obtain ⟨-, rfl⟩ := h3
            have hxx : x = x' := by
              cases k <;> cases k' <;> simp only [push, splines] at hx hold <;>
                first
                | (rcases List.mem_append.1 hx with h | h
                   · exact absurd h hold
                   · exact List.mem_singleton.1 h)
                | exact absurd hx hold
            subst hxx
            have : (s.1.base.withDVs g (dvs x)).isDVInProblem d = true := by
              rw [(withDVs_spec (dvs x) g s.1.base).mem]; simp [hd]
            cases k' <;> exact this
          · simp only [hf, if_false, Res.outcome, Option.some.injEq, Prod.mk.injEq] at h3
            obtain ⟨-, rfl⟩ := h3
            exfalso
            cases k <;> exact hold hx

/-- **C99** (negation): `clear()` empties the batch and keeps listing its splines. -/
theorem C99_clear_keeps_splines (dvs : SplineId → List DVId) (p : SplineProblem V) (h : Heap V) :
    ∃ p', (SOp.base .clear : SOp V).step dvs (p, h) = .ok () (p', h) ∧ p'.base.numDesignVariables = 0 ∧
      (∀ d, p'.base.isDVInProblem d = false) ∧ ∀ k, p'.splines k = p.splines k := by
  refine ⟨_, rfl, rfl, fun d => rfl, fun k => ?_⟩
  cases k <;> rfl

/-- witness: after adding spline 1 and clearing, the spline is listed and its first variable is not in the batch. -/
theorem C99_listed_but_not_contained :
    ∃ tr p h, SOp.run demoDVs [.addSpline .trans (some 1) 0, .base .clear] ((SplineProblem.empty : SplineProblem Nat), heap0) =
      .ok tr (p, h) ∧ 1 ∈ p.splines .trans ∧ 10 ∈ demoDVs 1 ∧ p.base.isDVInProblem 10 = false :=
  ⟨_, _, _, rfl, by decide, by decide, rfl⟩

/-- Specification: a design variable of the batch that the batch does not keep alive.  `addSpline` hands out pointers that
own nothing; only the listed splines, and the variables passed to `addDesignVariable`, are kept alive by the batch. -/
def Unowned (dvs : SplineId → List DVId) (ops : List (SOp V)) (p : SplineProblem V) (d : DVId) : Prop :=
  p.base.isDVInProblem d = true ∧ (∀ g, SOp.base (.addDV (some d) g) ∉ ops) ∧ ∀ k, ∀ x ∈ p.splines k, d ∉ dvs x

/-- **C99** (partial: every `addSpline` call returned): every variable of the batch is kept alive by it, even after
`clear()`. -/
theorem C99_owned_partial (dvs : SplineId → List DVId) (h0 : Heap V) (ops : List (SOp V)) (tr : List Bool)
    (p : SplineProblem V) (h : Heap V) (hrun : SOp.run dvs ops (SplineProblem.empty, h0) = .ok tr (p, h))
    (hok : ∀ (i : Nat) (k : SplineKind) (x : Option SplineId) (g : GroupId), ops[i]? = some (SOp.addSpline k x g) → tr[i]? = some true) (d : DVId) : ¬ Unowned dvs ops p d := by
  suffices ∀ (ops : List (SOp V)) tr (s t : SplineProblem V × Heap V), BInv s.2 s.1.base → SOp.run dvs ops s = .ok tr t →
      (∀ (i : Nat) (k : SplineKind) (x : Option SplineId) (g : GroupId), ops[i]? = some (SOp.addSpline k x g) → tr[i]? = some true) → t.1.base.isDVInProblem d = true →
      (∃ g, SOp.base (.addDV (some d) g) ∈ ops) ∨ (∃ k, ∃ x ∈ t.1.splines k, d ∈ dvs x) ∨
        s.1.base.isDVInProblem d = true ∧ ∀ k, ∀ x ∈ s.1.splines k, x ∈ t.1.splines k by
    rintro ⟨h1, h2, h3⟩
    rcases this ops tr _ _ (BInv.empty _) hrun hok h1 with ⟨g, hg⟩ | ⟨k, x, hx, hd⟩ | ⟨h4, -⟩
    · exact h2 g hg
    · exact h3 k x hx hd
    · simp [SplineProblem.empty, OptProblem.empty, OptProblem.isDVInProblem, AL.has] at h4
  intro ops
  induction ops with
  | nil =>
    intro tr s t _ hr _ hd
    simp [SOp.run] at hr
    obtain ⟨-, rfl⟩ := hr
    exact Or.inr (Or.inr ⟨hd, fun k x hx => hx⟩)
  | cons op ops ih =>
    intro tr s t hi hr hok hd
    obtain ⟨b, tr', s', rfl, h3, h4⟩ := run_cons hr
    have hb := step_refines h3 ⟨s.1.trans, s.1.rot⟩ rfl rfl
    obtain ⟨⟨bo, bt, hbr⟩, ht1, ht2⟩ := hb
    have hi' : BInv s'.2 s'.1.base := BOp.run_inv (s := (s.1.base, s.2)) (t := (s'.1.base, s'.2)) hi hbr
    have hkeep : ∀ k, ∀ x ∈ s.1.splines k, x ∈ s'.1.splines k := by
      intro k x hx
      cases k
      · simp only [splines] at hx ⊢
        rw [ht1]
        cases b <;> (try exact hx)
        cases op with
        | base op => exact hx
        | addSpline k' x' g => cases x' <;> cases k' <;> simp [SplineSpec.step, hx]
      · simp only [splines] at hx ⊢
        rw [ht2]
        cases b <;> (try exact hx)
        cases op with
        | base op => exact hx
        | addSpline k' x' g => cases x' <;> cases k' <;> simp [SplineSpec.step, hx]
    rcases ih tr' s' t hi' h4 (fun i k x g hg => by simpa using hok (i + 1) k x g (by simpa using hg)) hd with
      ⟨g, hg⟩ | h5 | ⟨h5, h6⟩
    · exact Or.inl ⟨g, by simp [hg]⟩
    · exact Or.inr (Or.inl h5)
    · by_cases hs : s.1.base.isDVInProblem d = true
      · exact Or.inr (Or.inr ⟨hs, fun k x hx => h6 k x (hkeep k x hx)⟩)
      · cases op with
        | base op =>
          left
          simp only [SOp.step] at h3
          have hstep : ∃ u, (op.step (s.1.base, s.2)).outcome = some (b, u) ∧ s'.1.base = u.1 := by
            cases hs : op.step (s.1.base, s.2) with
            | ok a u =>
              rw [hs] at h3
              simp only [Res.mapState, Res.outcome, Option.some.injEq, Prod.mk.injEq] at h3
              obtain ⟨rfl, rfl⟩ := h3
              exact ⟨u, rfl, rfl⟩
            | throw e u =>
              rw [hs] at h3
              simp only [Res.mapState, Res.outcome, Option.some.injEq, Prod.mk.injEq] at h3
              obtain ⟨rfl, rfl⟩ := h3
              exact ⟨u, rfl, rfl⟩
            | ub => rw [hs] at h3; simp [Res.mapState, Res.outcome] at h3
            | diverge => rw [hs] at h3; simp [Res.mapState, Res.outcome] at h3
          obtain ⟨u, hu1, hu2⟩ := hstep
          have he := BOp.step_eff (s := (s.1.base, s.2)) hi hu1
          rw [hu2] at h5
          simp only [OptProblem.isDVInProblem, AL.has_iff] at h5 hs
          cases he with
          | fail => exact absurd h5 hs
          | heap hop hh he => exact absurd h5 hs
          | addDV d' g hop hd' =>
            rw [keys_withDV] at h5
            rcases List.mem_append.1 h5 with h | h
            · exact absurd h hs
            · rw [List.mem_singleton.1 h]; exact ⟨g, by simp [hop]⟩
          | addET e hop he hd' => exact absurd h5 hs
          | clear hop => simp [OptProblem.empty, AL.keys] at h5
          | order o hop ho => exact absurd h5 hs
          | permET ok perm hop l hl => exact absurd h5 hs
          | permDV ok perm g hop l l' hg hl => exact absurd h5 hs
          | save hop => exact absurd h5 hs
        | addSpline k x g =>
          right; left
          cases x with
          | none => simp [SOp.step, addSpline, Res.outcome] at h3
          | some x =>
            have hbt : b = true := by simpa using hok 0 k (some x) g (by simp)
            subst hbt
            simp only [SOp.step, addSpline, splineLoop_eq] at h3
            by_cases hf : freshPrefix (AL.keys s.1.base.lookup) (dvs x) = dvs x
            · simp only [hf, if_true, Res.outcome, Option.some.injEq, Prod.mk.injEq] at h3
              obtain ⟨-, rfl⟩ := h3
              refine ⟨k, x, h6 k x ?_, ?_⟩
              · cases k <;> simp [push, splines]
              · have : (s.1.base.withDVs g (dvs x)).isDVInProblem d = true := by cases k <;> exact h5
                rw [(withDVs_spec (dvs x) g s.1.base).mem] at this
                simpa [hs] using this
            · simp [hf, Res.outcome] at h3

/-- **C99** (negation): an `addSpline` that throws leaves variables in the batch that nothing keeps alive: spline 2 shares a
variable with spline 1. -/
theorem C99_dangling_after_exception :
    ∃ tr p h, SOp.run demoDVs [.addSpline .trans (some 1) 0, .addSpline .rot (some 2) 0]
      ((SplineProblem.empty : SplineProblem Nat), heap0) = .ok tr (p, h) ∧ tr = [true, false] ∧
      Unowned demoDVs [.addSpline .trans (some 1) 0, .addSpline .rot (some 2) 0] p 20 := by
  refine ⟨_, _, _, rfl, rfl, rfl, by simp, ?_⟩
  intro k x hx
  cases k
  · have : x = 1 := by simpa [splines, SplineProblem.empty, push] using hx
    subst this; decide
  · simp [splines, SplineProblem.empty, push] at hx

example : ∃ tr p h, SOp.run demoDVs [.addSpline .trans (some 1) 0, .base (.addDV (some 5) 1), .base (.setOrdering [1, 0]),
      .addSpline .rot (some 1) 0] ((SplineProblem.empty : SplineProblem Nat), heap0) = .ok tr (p, h) ∧
    tr = [true, true, true, false] ∧ p.trans = [1] ∧ p.rot = [] ∧ p.base.ordering = [1, 0] :=
  ⟨_, _, _, rfl, rfl, rfl, rfl, rfl⟩

/-- **C99**: `getTranslationSpline(i)` / `getRotationSpline(i)` give the i-th spline; other indices throw if the test is
compiled in and are undefined otherwise (release build of the egomotion package). -/
theorem C99_get_spline (checked : Bool) (p : SplineProblem V) (k : SplineKind) (i : Nat) :
    (∀ x, getSpline checked p k i = .ok x () ↔ (p.splines k)[i]? = some x) ∧
    ((p.splines k).length ≤ i → getSpline checked p k i = if checked then .throw .outOfBound () else .ub) := by
  constructor
  · intro x
    unfold getSpline
    cases (p.splines k)[i]? <;> cases checked <;> simp
  · intro h
    unfold getSpline
    rw [List.getElem?_eq_none h]

end SplineProblem
end Verif
