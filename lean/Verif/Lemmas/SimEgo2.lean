import Verif.Lemmas.SimEgo
import Verif.Props.Egomotion

/-! Lemmas about the sensor data of the egomotion simulator and the program that feeds the calibrator. -/

namespace Verif
namespace SimEgo
open SimTD (Vec3 Quat Pose Path)
variable {T : Type} [Group T]

/-- the data with one more reading per sensor of a list. -/
def Data.step (d : Data T) (l : List ℕ) (c n : ℕ → Ego.Meas T) : Data T :=
  ⟨fun k => if k ∈ l then d.clean k ++ [c k] else d.clean k, fun k => if k ∈ l then d.noisy k ++ [n k] else d.noisy k⟩

omit [Group T] in
theorem Data.ext' {a b : Data T} (h1 : ∀ k, a.clean k = b.clean k) (h2 : ∀ k, a.noisy k = b.noisy k) : a = b := by
  cases a; cases b; simp only [Data.mk.injEq]; exact ⟨funext h1, funext h2⟩

theorem sensorStep_ok (env : Env T) (p : Params T) (S : ℤ → T) (j : ℕ) (l : List ℕ) (hnd : l.Nodup)
    (hcal : ∀ k ∈ l, k = p.ref ∨ (p.calib k).isSome = true) (d : Data T) :
    sensorStep env p (j + 1) (((j : ℤ) + 1) * env.ns p.dt) (S ((j : ℤ) * env.ns p.dt)) (S (((j : ℤ) + 1) * env.ns p.dt)) l d
      = .ok () (d.step l (fun k => reading env p S k j) (fun k => noisyReading env p S k j)) := by
  induction l generalizing d with
  | nil =>
    simp only [sensorStep, Data.step, List.not_mem_nil, if_false]
  | cons s ss ih =>
    have hnd' := List.nodup_cons.mp hnd
    have key : ∀ m m' : Ego.Meas T, m = reading env p S s j → m' = noisyReading env p S s j →
        Data.step (⟨pushAt d.clean m, pushAt d.noisy m'⟩ : Data T) ss (fun k => reading env p S k j)
          (fun k => noisyReading env p S k j)
          = d.step (s :: ss) (fun k => reading env p S k j) (fun k => noisyReading env p S k j) := by
      rintro m m' rfl rfl
      apply Data.ext'
      · intro k
        by_cases hk : k = s
        · subst hk
          simp [Data.step, pushAt, hnd'.1, reading]
        · simp [Data.step, pushAt, hk, reading]
      · intro k
        by_cases hk : k = s
        · subst hk
          simp [Data.step, pushAt, hnd'.1, reading, noisyReading]
        · simp [Data.step, pushAt, hk, reading, noisyReading]
    rw [sensorStep]
    by_cases hs : s = p.ref
    · rw [if_pos hs]
      simp only
      rw [ih hnd'.2 (fun k hk => hcal k (List.mem_cons_of_mem _ hk)), key]
      · simp [reading, Params.delay, Params.mount, hs]
      · simp [noisyReading, reading, Params.delay, Params.mount, hs]
    · rw [if_neg hs]
      rcases hcal s List.mem_cons_self with h | h
      · exact absurd h hs
      · obtain ⟨⟨dl, C⟩, hc⟩ := Option.isSome_iff_exists.mp h
        simp only [hc]
        rw [ih hnd'.2 (fun k hk => hcal k (List.mem_cons_of_mem _ hk)), key]
        · simp only [reading, Params.delay, Params.mount, hs, hc, if_false]
          congr 1; group
        · simp only [noisyReading, reading, Params.delay, Params.mount, hs, hc, if_false]
          congr 1; group

/-- The data after `n` steps. -/
def after (env : Env T) (p : Params T) (S : ℤ → T) (d : Data T) (n : ℕ) : Data T :=
  ⟨fun k => d.clean k ++ if k ∈ p.sensors then (List.range n).map (reading env p S k) else [],
    fun k => d.noisy k ++ if k ∈ p.sensors then (List.range n).map (noisyReading env p S k) else []⟩

/-- The loop variables after `m` rounds. -/
def dataSeq (env : Env T) (p : Params T) (S : ℤ → T) (d : Data T) (m : ℕ) : DSt T :=
  { data := after env p S d (m - 1)
    t := (m : ℤ) * env.ns p.dt
    prev := if m = 0 then none else some (S (((m : ℤ) - 1) * env.ns p.dt))
    k := m }

theorem after_succ (env : Env T) (p : Params T) (S : ℤ → T) (d : Data T) (n : ℕ) :
    (after env p S d n).step p.sensors (fun k => reading env p S k n) (fun k => noisyReading env p S k n)
      = after env p S d (n + 1) := by
  apply Data.ext' <;> intro k <;> by_cases hk : k ∈ p.sensors <;> simp [Data.step, after, hk, List.range_succ]

theorem dataBody_ok (env : Env T) (p : Params T) (S : ℤ → T) (hnd : p.sensors.Nodup) (hcal : p.Calibrated) (d : Data T) (m : ℕ) :
    dataBody env p S (dataSeq env p S d m) = .ok () (dataSeq env p S d (m + 1)) := by
  cases m with
  | zero =>
    simp [dataSeq, dataBody, after]
  | succ j =>
    have := sensorStep_ok env p S j p.sensors hnd hcal (after env p S d j)
    rw [after_succ] at this
    simp only [dataSeq, dataBody, Nat.add_eq_zero_iff, one_ne_zero, and_false, if_false, Nat.cast_add, Nat.cast_one,
      add_sub_cancel_right, Nat.add_sub_cancel]
    rw [this]
    simp only [Res.ok.injEq, true_and, DSt.mk.injEq, and_true]
    ring

theorem data_loop (env : Env T) (p : Params T) (S : ℤ → T) (hnd : p.sensors.Nodup) (hcal : p.Calibrated)
    (hns : 0 < env.ns p.dt) (d : Data T) (n : ℕ) :
    Loop.run (fun s : DSt T => s.t ≤ (n : ℤ) * env.ns p.dt) (dataBody env p S) ⟨d, 0, none, 0⟩
      = .ok () (dataSeq env p S d (n + 1)) := by
  have h0 : (⟨d, 0, none, 0⟩ : DSt T) = dataSeq env p S d 0 := by
    simp [dataSeq, after]
  rw [h0]
  apply Loop.run_ok
  · intro k hk
    refine ⟨?_, dataBody_ok env p S hnd hcal d k⟩
    show (k : ℤ) * env.ns p.dt ≤ n * env.ns p.dt
    apply mul_le_mul_of_nonneg_right _ hns.le
    exact_mod_cast Nat.le_of_lt_succ hk
  · show ¬ ((n + 1 : ℕ) : ℤ) * env.ns p.dt ≤ n * env.ns p.dt
    push_cast
    intro h
    nlinarith

/-! ### Feeding the calibrator -/

variable {E G P V : Type}

theorem feed_runOps (cenv : Ego.Env T E G P V) (o : Ego.Opt) (data : ℕ → List (Ego.Meas T)) (l : List (ℕ × ℕ))
    (s : Ego.Cal T E G P) (r : ℕ × ℕ → Ego.Meas T) (hr : ∀ x ∈ l, (data x.2)[x.1]? = some (r x)) :
    feed cenv o data l s = Win.runOps (Ego.cfg cenv o) s (l.map fun x => Win.Op.add (r x)) := by
  induction l generalizing s with
  | nil => rfl
  | cons x l ih =>
    obtain ⟨i, k⟩ := x
    rw [feed, hr (i, k) List.mem_cons_self]
    simp only [List.map_cons, Win.runOps, Win.Op.run]
    congr 1
    funext _ s'
    exact ih s' fun y hy => hr y (List.mem_cons_of_mem _ hy)

omit [Group T] in
theorem filter_keys (keys : List ℕ) (hnd : keys.Nodup) (r : ℕ → Ego.Meas T) (hr : ∀ k, (r k).sensor = k) (k : ℕ) :
    (keys.map r).filter (fun m => decide (m.sensor = k)) = if k ∈ keys then [r k] else [] := by
  induction keys with
  | nil => simp
  | cons a l ih =>
    have hnd' := List.nodup_cons.mp hnd
    rw [List.map_cons, List.filter_cons]
    by_cases hak : a = k
    · subst hak
      simp [hr, ih hnd'.2, hnd'.1]
    · have : k ≠ a := fun e => hak e.symm
      simp [hr, ih hnd'.2, hak, this]

omit [Group T] in
theorem Contiguous_mid {a b c : List (Ego.Meas T)} (h : Ego.Contiguous (a ++ (b ++ c))) : Ego.Contiguous b := by
  have hd : ∀ (a l : List (Ego.Meas T)), Ego.Contiguous (a ++ l) → Ego.Contiguous l := by
    intro a l
    induction a with
    | nil => exact id
    | cons x a ih => intro h; exact ih (Ego.Contiguous.tail h)
  have ht : ∀ (b l : List (Ego.Meas T)), Ego.Contiguous (b ++ l) → Ego.Contiguous b := by
    intro b
    induction b with
    | nil => intro l _; trivial
    | cons x b ih =>
      intro l h
      cases b with
      | nil => trivial
      | cons y b =>
        exact ⟨h.1, h.2.1, ih l h.2.2⟩
  exact ht _ _ (hd _ _ h)

theorem readings_contiguous (env : Env T) (p : Params T) (S : ℤ → T) (hns : 0 ≤ env.ns p.dt) (k : ℕ) (n : ℕ) :
    ∀ a, Ego.Contiguous ((List.range' a n).map (reading env p S k)) := by
  induction n with
  | zero => intro a; trivial
  | succ n ih =>
    intro a
    cases n with
    | zero => trivial
    | succ n =>
      have := ih (a + 1)
      rw [List.range'_succ, List.range'_succ] at *
      refine ⟨?_, hns, this⟩
      simp only [reading]
      push_cast; ring

end SimEgo
end Verif
