import Verif.Lemmas.DesignVars

/-! Property C102: parameter vectors and reports of the time delay and the egomotion calibrator. -/

namespace Verif
namespace TDVars

/-- **C102**: the parameter vector of the time delay calibrator has every parameter in a slot of its own, in the order of the
printed labels. -/
theorem C102_parameters {F : Type} (o : Values F) :
    getParameters o = [some o.b, some o.k_l, some o.t_l, some o.k_r, some o.t_r, some (o.v_r_vp 0), some (o.v_r_vp 1),
      some (o.v_r_vp 2), some (o.ypr 0), some (o.ypr 1), some (o.ypr 2)] := rfl

/-- **C102**: two settings with the same parameter vector are the same. -/
theorem C102_parameters_determine {F : Type} {o o' : Values F} (h : getParameters o = getParameters o') : o = o' := by
  rw [C102_parameters, C102_parameters] at h
  simp only [List.cons.injEq, Option.some.injEq, and_true] at h
  obtain ⟨h0, h1, h2, h3, h4, h5, h6, h7, h8, h9, h10⟩ := h
  cases o; cases o'
  simp only [Values.mk.injEq]
  refine ⟨h0, h1, h2, h3, h4, ?_, ?_⟩
  · funext i; match i with | 0 => exact h5 | 1 => exact h6 | 2 => exact h7
  · funext i; match i with | 0 => exact h8 | 1 => exact h9 | 2 => exact h10

/-- the same for any activity, set up by whatever means. -/
theorem C102_td_report_any (active : TVar → Bool) :
    ((printObservability active).isSome ↔ ∀ v, active v = true) ∧
    ∀ r, printObservability active = some r → r.map Prod.fst = printedLabels ∧ ∀ p ∈ r, p.1 = p.2 := by
  have hl : printedLabels = Report.rows (fun _ => true) minDim batchOrder := rfl
  have hd : ∀ v ∈ batchOrder, 0 < minDim v := by decide
  have hm : ∀ v : TVar, v ∈ batchOrder := by intro v; cases v <;> decide
  refine ⟨?_, fun r hr => ?_⟩
  · rw [printObservability, hl, Report.report_iff active minDim batchOrder hd]
    exact ⟨fun h v => h v (hm v), fun h v _ => h v⟩
  · rw [printObservability, hl] at hr
    rw [hl]
    exact Report.report_right active minDim batchOrder hd hr

/-- **C102**: the verbose output of the time delay calibrator is defined exactly when all variables are active, that is with
all three configuration switches on; then every row carries its own label. -/
theorem C102_td_report (translation rotation delays : Bool) :
    ((printObservability (ctorActive translation rotation delays)).isSome ↔ translation ∧ rotation ∧ delays) ∧
    ∀ r, printObservability (ctorActive translation rotation delays) = some r →
      r.map Prod.fst = printedLabels ∧ ∀ p ∈ r, p.1 = p.2 := by
  refine ⟨?_, (C102_td_report_any _).2⟩
  rw [(C102_td_report_any _).1]
  constructor
  · intro h
    exact ⟨h .v_r_vp, h .v_R_p, h .t_l⟩
  · rintro ⟨h1, h2, h3⟩ v
    cases v <;> first | rfl | exact h1 | exact h2 | exact h3

/-- **C102**: the columns the constructor's switches leave to be estimated: wheel base and coefficients always, both time
delays together, position and orientation of the sensor each with three columns. -/
theorem C102_td_columns (translation rotation delays : Bool) :
    Report.rows (ctorActive translation rotation delays) minDim batchOrder =
      [(.b, 0), (.k_l, 0)] ++ (if delays then [(.t_l, 0)] else []) ++ [(.k_r, 0)] ++ (if delays then [(.t_r, 0)] else []) ++
      (if translation then [(.v_r_vp, 0), (.v_r_vp, 1), (.v_r_vp, 2)] else []) ++
      (if rotation then [(.v_R_p, 0), (.v_R_p, 1), (.v_R_p, 2)] else []) := by
  cases translation <;> cases rotation <;> cases delays <;> rfl

/-- **C102** (negation): with time delays switched off the row labelled as left time delay is that of the right wheel
coefficient. -/
theorem C102_td_wrong_label : printedLabels[2]? = some (.t_l, 0) ∧
    (Report.rows (ctorActive true true false) minDim batchOrder)[2]? = some (.k_r, 0) := by decide

end TDVars

namespace EgoVars
variable {F : Type}

/-- **C102**: the verbose output of the egomotion calibrator is defined exactly when all variables of all sensors are active;
then every row carries its own label, for any set of sensors in any iteration order. -/
theorem C102_ego_report (active : Nat × Part → Bool) (l : List Nat) :
    ((printObservability active l).isSome ↔ ∀ s ∈ l, ∀ p, active (s, p) = true) ∧
    ∀ r, printObservability active l = some r → r.map Prod.fst = printedLabels l ∧ ∀ p ∈ r, p.1 = p.2 := by
  refine ⟨?_, fun r hr => ?_⟩
  · rw [printObservability, ← rows_full, Report.report_iff _ _ _ (dim_pos l)]
    constructor
    · intro h s hs p
      refine h (s, p) (List.mem_flatMap.2 ⟨s, hs, ?_⟩)
      cases p <;> simp
    · intro h v hv
      obtain ⟨s, hs, hv⟩ := List.mem_flatMap.1 hv
      have h1 : v.1 = s := by
        simp only [List.mem_cons, List.not_mem_nil, or_false] at hv
        rcases hv with rfl | rfl | rfl <;> rfl
      have := h s hs v.2
      rw [← h1] at this
      exact this
  · rw [printObservability, ← rows_full] at hr
    rw [← rows_full]
    exact Report.report_right active _ _ (dim_pos l) hr

/-- **C102** (negation): a fixed reference sensor, the usual set-up, makes the output undefined. -/
theorem C102_ego_fixed_reference (active : Nat × Part → Bool) (l : List Nat) {s : Nat} (hs : s ∈ l)
    (h : active (s, .r) = false) : printObservability active l = none := by
  have := (C102_ego_report active l).1
  cases hp : printObservability active l with
  | none => rfl
  | some r =>
    rw [hp] at this
    have := this.1 rfl s hs .r
    rw [h] at this
    cases this

/-- **C102**: the parameter vector of a sensor: its delay, translation and angles as configured, if the sensors have distinct
indices; indices of no sensor throw. -/
theorem C102_ego_parameters_partial (num : Int) (cfg : Nat → SensorCfg F) (m : List (Nat × SensorCfg F))
    (h : construct num cfg = .ok () m)
    (hd : ∀ i j : Nat, (i : Int) < num → (j : Int) < num → (cfg i).idx = (cfg j).idx → i = j) :
    (∀ i : Nat, (i : Int) < num → getParameters m (cfg i).idx =
      .ok [some (cfg i).delay, some ((cfg i).trans 0), some ((cfg i).trans 1), some ((cfg i).trans 2), some ((cfg i).ypr 0),
        some ((cfg i).ypr 1), some ((cfg i).ypr 2)] ()) ∧
    ∀ s, (∀ i : Nat, (i : Int) < num → (cfg i).idx ≠ s) → getParameters m s = .throw .outOfBound () := by
  have hnum : 0 ≤ num := by
    by_contra hn
    rw [construct, if_pos (by omega)] at h
    cases h
  rw [construct, if_neg (by omega)] at h
  simp only [Res.ok.injEq, true_and] at h
  have hg : ∀ s, AL.get s m = match (List.range num.toNat).reverse.find? (fun i => (cfg i).idx = s) with
      | some i => some (cfg i)
      | none => none := by
    intro s
    rw [← h, foldl_get]
    cases (List.range num.toNat).reverse.find? (fun i => (cfg i).idx = s) <;> rfl
  constructor
  · intro i hi
    have : AL.get (cfg i).idx m = some (cfg i) := by
      rw [hg]
      cases hf : (List.range num.toNat).reverse.find? (fun j => (cfg j).idx = (cfg i).idx) with
      | none =>
        rw [List.find?_eq_none] at hf
        exact absurd (by simp) (hf i (by simp; omega))
      | some j =>
        have h1 := List.find?_some hf
        have h2 := List.mem_of_find?_eq_some hf
        simp only [decide_eq_true_eq] at h1
        simp only [List.mem_reverse, List.mem_range] at h2
        rw [hd j i (by omega) hi h1]
    rw [getParameters, this]
    rfl
  · intro s hs
    have : AL.get s m = none := by
      rw [hg]
      cases hf : (List.range num.toNat).reverse.find? (fun j => (cfg j).idx = s) with
      | none => rfl
      | some j =>
        have h1 := List.find?_some hf
        have h2 := List.mem_of_find?_eq_some hf
        simp only [decide_eq_true_eq] at h1
        simp only [List.mem_reverse, List.mem_range] at h2
        exact absurd h1 (hs j (by omega))
    rw [getParameters, this]

/-- **C102** (negation): of two sensors configured with the same index only the last exists. -/
theorem C102_ego_same_index (num : Int) (cfg : Nat → SensorCfg F) {i j : Nat} (hij : i < j) (hj : (j : Int) < num)
    (he : (cfg i).idx = (cfg j).idx) (hl : ∀ k : Nat, j < k → (k : Int) < num → (cfg k).idx ≠ (cfg j).idx) :
    ∃ m, construct num cfg = .ok () m ∧ AL.get (cfg i).idx m = some (cfg j) := by
  refine ⟨_, by rw [construct, if_neg (by omega)], ?_⟩
  rw [foldl_get]
  cases hf : (List.range num.toNat).reverse.find? (fun k => (cfg k).idx = (cfg i).idx) with
  | none =>
    rw [List.find?_eq_none] at hf
    exact absurd (by simp) (hf i (by simp; omega))
  | some k =>
    have h1 := List.find?_some hf
    simp only [decide_eq_true_eq] at h1
    have h2 := List.mem_of_find?_eq_some hf
    simp only [List.mem_reverse, List.mem_range] at h2
    have hk : k = j := by
      rcases Nat.lt_trichotomy k j with h | h | h
      · exfalso
        rw [List.find?_eq_some_iff_append] at hf
        obtain ⟨-, as, bs, hs, hno⟩ := hf
        have hjm : j ∈ as := by
          have hr : List.range num.toNat = bs.reverse ++ k :: as.reverse := by
            have := congrArg List.reverse hs
            simpa using this
          have hjr : j ∈ List.range num.toNat := List.mem_range.2 (by omega)
          have hp := List.pairwise_lt_range (n := num.toNat)
          rw [hr] at hjr hp
          rw [List.pairwise_append] at hp
          rcases List.mem_append.1 hjr with h' | h'
          · have := hp.2.2 j h' k (by simp); omega
          · rcases List.mem_cons.1 h' with h' | h'
            · omega
            · simpa using h'
        have := hno j hjm
        simp [he] at this
      · exact h
      · exact absurd (h1.trans he) (hl k h (by omega))
    rw [hk]

/-- the hypotheses are met: two sensors with the indices 4 and 7, or both with index 4. -/
def demoCfg (b : Nat) (i : Nat) : SensorCfg Nat :=
  ⟨if i = 0 then 4 else b, 10 + i, fun k => 100 * i + k, fun k => 200 * i + k, true, true, true⟩

example : ∃ m, construct 2 (demoCfg 7) = .ok () m ∧
    getParameters m 7 = .ok [some 11, some 100, some 101, some 102, some 200, some 201, some 202] () := ⟨_, rfl, rfl⟩

example : ∃ m, construct 2 (demoCfg 4) = .ok () m ∧ m.length = 1 := ⟨_, rfl, rfl⟩

example : (printObservability (fun _ => true) [4, 7]).map List.length = some 14 := by decide

end EgoVars
end Verif
