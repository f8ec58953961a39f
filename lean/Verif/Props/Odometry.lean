import Verif.Model.Odometry
import Verif.Lemmas.Batch

/-! Properties C45 (the parameter vector) and C61 (labels of the printed rows). -/

namespace Verif
namespace Odometry

/-- the documented layout of the parameter vector (specification): one slot per parameter. -/
def layout {F : Type} (o : Values F) : List F :=
  [o.e_r, o.e_f, o.L, o.k_rl, o.k_rr, o.k_fl, o.k_fr, o.k_dmi, o.a 0, o.a 1, o.a 2, o.a 3, o.v_r_vr 0, o.v_r_vr 1,
   o.v_r_vr 2, o.ypr 0, o.ypr 1, o.ypr 2, o.t_r, o.t_f, o.t_s, o.t_dmi]

theorem getParameters_eq {F : Type} (o : Values F) : getParameters o =
    [some o.e_r, some o.e_f, some o.L, some o.k_rl, some o.k_rr, some o.k_fl, some o.k_fr, some o.k_dmi, some (o.a 0),
     some (o.a 1), some (o.a 2), some o.t_dmi, some (o.v_r_vr 0), some (o.v_r_vr 1), some (o.v_r_vr 2), some (o.ypr 0),
     some (o.ypr 1), some (o.ypr 2), some o.t_r, some o.t_f, some o.t_s, none] := by
  simp only [getParameters, setSeg, List.replicate, List.set_cons_zero, List.set_cons_succ]

/-- **C45** (partial): the vector has 22 entries; all slots except 11 and 21 hold their parameter.  Missing: slots 11 and 21,
see `C45_wrong_slots`. -/
theorem C45_slots_partial {F : Type} (o : Values F) : (getParameters o).length = 22 ∧
    ∀ i, i < 22 → i ≠ 11 → i ≠ 21 → (getParameters o)[i]? = some ((layout o)[i]?) := by
  rw [getParameters_eq]
  refine ⟨rfl, fun i hi h1 h2 => ?_⟩
  match i, hi with
  | 0, _ | 1, _ | 2, _ | 3, _ | 4, _ | 5, _ | 6, _ | 7, _ | 8, _ | 9, _ | 10, _ => rfl
  | 12, _ | 13, _ | 14, _ | 15, _ | 16, _ | 17, _ | 18, _ | 19, _ | 20, _ => rfl
  | 11, _ => exact absurd rfl h1
  | 21, _ => exact absurd rfl h2
  | n + 22, h => omega

/-- **C45** (negation): slot 11, that of the last steering coefficient, holds the DMI time delay, and slot 21 is never
written. -/
theorem C45_wrong_slots {F : Type} (o : Values F) :
    (getParameters o)[11]? = some (some o.t_dmi) ∧ (getParameters o)[21]? = some none := by
  rw [getParameters_eq]; exact ⟨rfl, rfl⟩

/-- **C45** (negation): the last steering coefficient has no influence on the vector. -/
theorem C45_coefficient_lost {F : Type} (o : Values F) (x : F) :
    getParameters { o with a := fun i => if i = 3 then x else o.a i } = getParameters o := by
  rw [getParameters_eq, getParameters_eq]; simp

/-- **C45** (partial): everything but the last steering coefficient is determined by the vector. -/
theorem C45_determines_partial {F : Type} (o o' : Values F) (h : getParameters o = getParameters o') :
    o = { o' with a := fun i => if i = 3 then o.a 3 else o'.a i } := by
  simp only [getParameters_eq, List.cons.injEq, Option.some.injEq] at h
  obtain ⟨h0, h1, h2, h3, h4, h5, h6, h7, h8, h9, h10, h11, h12, h13, h14, h15, h16, h17, h18, h19, h20, -⟩ := h
  have ha : o.a = fun i => if i = 3 then o.a 3 else o'.a i := by
    funext i
    match i with
    | 0 => simpa using h8
    | 1 => simpa using h9
    | 2 => simpa using h10
    | 3 => rfl
  have hv : o.v_r_vr = o'.v_r_vr := by
    funext i
    match i with
    | 0 => exact h12
    | 1 => exact h13
    | 2 => exact h14
  have hy : o.ypr = o'.ypr := by
    funext i
    match i with
    | 0 => exact h15
    | 1 => exact h16
    | 2 => exact h17
  cases o
  simp only [Values.mk.injEq] at *
  exact ⟨h0, h1, h2, ha, h3, h4, h5, h6, h7, hv, hy, h18, h19, h20, h11⟩

/-- concrete instance: the vector of a car whose last steering coefficient is 5 and whose DMI delay is 9. -/
example : getParameters (⟨1, 2, 3, (fun i => [10, 20, 30, 5].getD i 0), 4, 5, 6, 7, 8, (fun i => if i = 2 then 1 else 0), (fun _ => 0), 7, 8, 9, 9⟩ : Values Nat) =
    [some 1, some 2, some 3, some 4, some 5, some 6, some 7, some 8, some 10, some 20, some 30, some 9, some 0, some 0,
     some 1, some 0, some 0, some 0, some 7, some 8, some 9, none] := by
  rw [getParameters_eq]; rfl

/-! ### C61 -/

theorem addToBatch_spec {V : Type} {ptr : OVar → DVId} (hp : Function.Injective ptr) (g : GroupId) :
    ∀ (l : List OVar) (b : OptProblem V), l.Nodup → (∀ v ∈ l, AL.get (ptr v) b.lookup = none) →
    ∃ b', addToBatch ptr g l b = .ok () b' ∧
      (AL.get g b'.groups).getD [] = (AL.get g b.groups).getD [] ++ l.map ptr := by
  intro l
  induction l with
  | nil => intro b _ _; exact ⟨b, rfl, by simp⟩
  | cons v l ih =>
    intro b hn hf
    have hv := hf v (by simp)
    have hadd : ∃ b1, b.addDesignVariable (some (ptr v)) g = .ok () b1 ∧
        (AL.get g b1.groups).getD [] = (AL.get g b.groups).getD [] ++ [ptr v] ∧
        b1.lookup = AL.set (ptr v) g b.lookup := by
      unfold OptProblem.addDesignVariable
      have : b.isDVInProblem (ptr v) = false := by simp [OptProblem.isDVInProblem, AL.has, hv]
      simp only [this]
      refine ⟨_, rfl, ?_, ?_⟩
      · simp only
        rw [AL.get_set_self]
        split_ifs <;> simp
      · simp only
        split_ifs <;> rfl
    obtain ⟨b1, h1, h2, h3⟩ := hadd
    have hn' := List.nodup_cons.1 hn
    obtain ⟨b', h4, h5⟩ := ih b1 hn'.2 (by
      intro w hw
      rw [h3, AL.get_set]
      have : ptr w ≠ ptr v := fun e => hn'.1 (by rw [← hp e]; exact hw)
      rw [if_neg (by tauto)]
      exact hf w (by simp [hw]))
    refine ⟨b', ?_, ?_⟩
    · rw [addToBatch, h1]; exact h4
    · rw [h5, h2]; simp

/-- **C61**: `addToBatch` on a new batch succeeds and the group holds the fifteen variables in the documented order. -/
theorem C61_batch_order {V : Type} {ptr : OVar → DVId} (hp : Function.Injective ptr) (g : GroupId) :
    ∃ b', addToBatch ptr g batchOrder (OptProblem.empty : OptProblem V) = .ok () b' ∧
      AL.get g b'.groups = some (batchOrder.map ptr) := by
  obtain ⟨b', h1, h2⟩ := addToBatch_spec (V := V) hp g batchOrder OptProblem.empty (by decide) (by intro v _; rfl)
  refine ⟨b', h1, ?_⟩
  cases hg : AL.get g b'.groups with
  | none => rw [hg] at h2; simp [batchOrder] at h2
  | some l => rw [hg] at h2; simp [OptProblem.empty] at h2; rw [h2]

theorem printRows_length {labels cols : List (OVar × Nat)} {r : List ((OVar × Nat) × (OVar × Nat))}
    (h : printRows labels cols = some r) : r = labels.zip cols ∧ labels.length ≤ cols.length := by
  induction labels generalizing cols r with
  | nil => cases h; simp
  | cons l ls ih =>
    cases cols with
    | nil => cases h
    | cons c cs =>
      rw [printRows] at h
      cases h2 : printRows ls cs with
      | none => rw [h2] at h; cases h
      | some r2 =>
        rw [h2] at h
        obtain rfl := Option.some.inj h
        obtain ⟨h3, h4⟩ := ih h2
        simp [h3, h4]

theorem printRows_of_length {labels cols : List (OVar × Nat)} (h : labels.length ≤ cols.length) :
    printRows labels cols = some (labels.zip cols) := by
  induction labels generalizing cols with
  | nil => rfl
  | cons l ls ih =>
    cases cols with
    | nil => simp at h
    | cons c cs => rw [printRows, ih (by simpa using h)]; rfl

theorem columns_all (active : OVar → Bool) : columns active = printedLabels.filter fun c => active c.1 := by
  have h : ∀ (l : List OVar), (l.flatMap fun v => if active v then (List.range (minDim v)).map fun i => (v, i) else []) =
      (l.flatMap fun v => (List.range (minDim v)).map fun i => (v, i)).filter fun c => active c.1 := by
    intro l
    induction l with
    | nil => rfl
    | cons v l ih =>
      rw [List.flatMap_cons, List.flatMap_cons, List.filter_append, ih]
      congr 1
      rw [List.filter_map]
      cases hv : active v <;> simp [Function.comp_def, hv]
  rw [columns, h]
  rfl

/-- **C61**: the verbose output of the calibrator is defined exactly when every calibration variable is active, and then
every row carries its own label. -/
theorem C61_labels_right_iff_all_active (active : OVar → Bool) :
    (printObservability active).isSome ↔ ∀ v, active v = true := by
  have hall : ∀ v : OVar, ∃ i, (v, i) ∈ printedLabels := by intro v; cases v <;> exact ⟨0, by decide⟩
  constructor
  · intro h
    obtain ⟨r, hr⟩ := Option.isSome_iff_exists.1 h
    have hl := (printRows_length hr).2
    rw [columns_all] at hl
    have h2 : (printedLabels.filter fun c => active c.1).length = printedLabels.length :=
      le_antisymm (List.length_filter_le _ _) hl
    rw [List.length_filter_eq_length_iff] at h2
    intro v
    obtain ⟨i, hi⟩ := hall v
    exact h2 _ hi
  · intro h
    have : columns active = printedLabels := by
      rw [columns_all, List.filter_eq_self]; intro c _; exact h c.1
    rw [printObservability, this, printRows_of_length (le_refl _)]
    rfl

/-- **C61**: whenever the output is defined every row carries its own label. -/
theorem C61_labels_right (active : OVar → Bool) {r : List ((OVar × Nat) × (OVar × Nat))}
    (h : printObservability active = some r) : r.map Prod.fst = printedLabels ∧ ∀ p ∈ r, p.1 = p.2 := by
  have hall := (C61_labels_right_iff_all_active active).1 (by rw [h]; rfl)
  have hc : columns active = printedLabels := by
    rw [columns_all, List.filter_eq_self]; intro c _; exact hall c.1
  have := (printRows_length h).1
  rw [hc] at this
  subst this
  exact ⟨by decide, by decide⟩

/-- **C61** (negation): with the activity set by the constructor the verbose output reads rows that do not exist, for both
settings of the time delays. -/
theorem C61_default_output_undefined (timeActive : Bool) : printObservability (ctorActive timeActive) = none := by
  cases timeActive <;> decide

/-- **C61** (negation): the standard deviations written by the calibration program after construction with active time
delays are read beyond the covariance, too; the row labelled as first mounting translation is that of the rear wheel delay. -/
theorem C61_deviations_undefined (timeActive : Bool) : printDeviations (ctorActive timeActive) = none ∧
    printedLabels[12]? = some (.v_r_vr, 0) ∧ (columns (ctorActive true))[12]? = some (.t_r, 0) := by
  cases timeActive <;> decide

/-- **C61** (partial): as long as the first nine variables are active the first twelve rows carry their own labels. -/
theorem C61_first_rows_partial (active : OVar → Bool) (h : ∀ v ∈ batchOrder.take 9, active v = true) :
    (columns active).take 12 = printedLabels.take 12 := by
  have h9 : ∀ c ∈ printedLabels.take 12, c.1 ∈ batchOrder.take 9 := by decide
  have hs : printedLabels = printedLabels.take 12 ++ printedLabels.drop 12 := (List.take_append_drop _ _).symm
  have h1 : (printedLabels.take 12).filter (fun c => active c.1) = printedLabels.take 12 := by
    rw [List.filter_eq_self]; intro c hc; exact h _ (h9 c hc)
  rw [columns_all]
  conv_lhs => rw [hs, List.filter_append, h1]
  rw [List.take_append_of_le_length (by decide)]
  simp

end Odometry
end Verif
