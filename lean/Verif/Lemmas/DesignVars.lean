import Verif.Model.DesignVars
import Verif.Lemmas.AL

/-! Lemmas for C102. -/

namespace Verif
namespace Report
variable {L W : Type}

theorem readRows_some {labels cols : List L} {r : List (L × L)} (h : readRows labels cols = some r) :
    r = labels.zip cols ∧ labels.length ≤ cols.length := by
  induction labels generalizing cols r with
  | nil => cases h; simp
  | cons l ls ih =>
    cases cols with
    | nil => cases h
    | cons c cs =>
      rw [readRows] at h
      cases h2 : readRows ls cs with
      | none => rw [h2] at h; cases h
      | some r2 =>
        rw [h2] at h
        obtain rfl := Option.some.inj h
        obtain ⟨h3, h4⟩ := ih h2
        simp [h3, h4]

theorem readRows_of_length {labels cols : List L} (h : labels.length ≤ cols.length) :
    readRows labels cols = some (labels.zip cols) := by
  induction labels generalizing cols with
  | nil => rfl
  | cons l ls ih =>
    cases cols with
    | nil => simp at h
    | cons c cs => rw [readRows, ih (by simpa using h)]; rfl

theorem rows_filter (active : W → Bool) (dim : W → Nat) (order : List W) :
    rows active dim order = (order.flatMap fun v => (List.range (dim v)).map fun i => (v, i)).filter fun c => active c.1 := by
  unfold rows
  induction order with
  | nil => rfl
  | cons v l ih =>
    rw [List.flatMap_cons, List.flatMap_cons, List.filter_append, ih]
    congr 1
    rw [List.filter_map]
    cases hv : active v <;> simp [Function.comp_def, hv]

/-- The general fact behind the reports: if the labels are the rows of the fully active problem, the report is defined exactly
when everything is active, and then every row carries its own label. -/
theorem report_iff (active : W → Bool) (dim : W → Nat) (order : List W) (hdim : ∀ v ∈ order, 0 < dim v) :
    (readRows (rows (fun _ => true) dim order) (rows active dim order)).isSome ↔ ∀ v ∈ order, active v = true := by
  have hfull : rows (fun _ => true) dim order = order.flatMap fun v => (List.range (dim v)).map fun i => (v, i) := by
    simp [rows]
  constructor
  · intro h v hv
    obtain ⟨r, hr⟩ := Option.isSome_iff_exists.1 h
    have hl := (readRows_some hr).2
    rw [rows_filter active, hfull] at hl
    have h2 := Nat.le_antisymm (List.length_filter_le _ _) hl
    rw [List.length_filter_eq_length_iff] at h2
    exact h2 (v, 0) (List.mem_flatMap.2 ⟨v, hv, List.mem_map.2 ⟨0, List.mem_range.2 (hdim v hv), rfl⟩⟩)
  · intro h
    have : rows active dim order = rows (fun _ => true) dim order := by
      rw [rows_filter active, hfull, List.filter_eq_self]
      intro c hc
      obtain ⟨v, hv, hc⟩ := List.mem_flatMap.1 hc
      obtain ⟨i, -, rfl⟩ := List.mem_map.1 hc
      exact h v hv
    rw [this, readRows_of_length (Nat.le_refl _)]
    rfl

theorem report_right (active : W → Bool) (dim : W → Nat) (order : List W) (hdim : ∀ v ∈ order, 0 < dim v)
    {r : List ((W × Nat) × (W × Nat))}
    (h : readRows (rows (fun _ => true) dim order) (rows active dim order) = some r) :
    r.map Prod.fst = rows (fun _ => true) dim order ∧ ∀ p ∈ r, p.1 = p.2 := by
  have hall := (report_iff active dim order hdim).1 (by rw [h]; rfl)
  have hfull : rows (fun _ => true) dim order = order.flatMap fun v => (List.range (dim v)).map fun i => (v, i) := by
    simp [rows]
  have : rows active dim order = rows (fun _ => true) dim order := by
    rw [rows_filter active, hfull, List.filter_eq_self]
    intro c hc
    obtain ⟨v, hv, hc⟩ := List.mem_flatMap.1 hc
    obtain ⟨i, -, rfl⟩ := List.mem_map.1 hc
    exact hall v hv
  have hz := (readRows_some h).1
  rw [this] at hz
  subst hz
  refine ⟨by rw [List.map_fst_zip (Nat.le_refl _)], ?_⟩
  intro p hp
  generalize rows (fun _ => true) dim order = l at hp
  clear h this hall hfull
  induction l with
  | nil => simp at hp
  | cons a l ih =>
    rw [List.zip_cons_cons, List.mem_cons] at hp
    rcases hp with rfl | hp
    · rfl
    · exact ih hp

end Report

namespace EgoVars
variable {F : Type}

theorem rows_full (l : List Nat) : Report.rows (fun _ => true) (fun v : Nat × Part => partDim v.2) (batchOrder l) =
    printedLabels l := by
  unfold Report.rows batchOrder printedLabels
  rw [List.flatMap_assoc]
  congr 1

theorem dim_pos (l : List Nat) : ∀ v ∈ batchOrder l, 0 < partDim v.2 := by
  intro v _; cases v.2 <;> decide

theorem foldl_get (cfg : Nat → SensorCfg F) (is : List Nat) (m : List (Nat × SensorCfg F)) (s : Nat) :
    AL.get s (is.foldl (fun m i => AL.set (cfg i).idx (cfg i) m) m) =
      match is.reverse.find? (fun i => (cfg i).idx = s) with
      | some i => some (cfg i)
      | none => AL.get s m := by
  induction is generalizing m with
  | nil => rfl
  | cons i is ih =>
    rw [List.foldl_cons, ih, List.reverse_cons, List.find?_append]
    cases h : is.reverse.find? (fun i => (cfg i).idx = s) with
    | some j => simp
    | none =>
      simp only [Option.none_or, List.find?_singleton]
      rw [AL.get_set]
      by_cases hi : (cfg i).idx = s <;> simp [hi]

end EgoVars
end Verif
