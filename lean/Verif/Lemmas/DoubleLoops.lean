import Verif.Model.DoubleLoops
import Verif.Lemmas.Double
import Verif.Lemmas.Loop
import Mathlib.Tactic.NormNum

namespace Verif
namespace Dbl

/-- the times at which the loop of `timeLoop` stops by. -/
def times (fl : ℚ → ℚ) (t0 dt : ℚ) : ℕ → ℚ
  | 0 => t0
  | k + 1 => fl (times fl t0 dt k + dt)

theorem times_id (t0 dt : ℚ) (k : ℕ) : times id t0 dt k = t0 + k * dt := by
  induction k with
  | zero => simp [times]
  | succ k ih => simp only [times, ih, id]; push_cast; ring

theorem timeLoop_ok {fl : ℚ → ℚ} {t0 dt stop : ℚ} (n : ℕ) (h : ∀ k < n, times fl t0 dt k < stop)
    (hn : stop ≤ times fl t0 dt n) : timeLoop fl t0 dt stop = .ok () (times fl t0 dt n, n) := by
  have := Loop.run_ok (fun s : ℚ × ℕ => s.1 < stop) (fun s => .ok () (fl (s.1 + dt), s.2 + 1))
    (fun k => (times fl t0 dt k, k)) n (fun k hk => ⟨h k hk, rfl⟩) (not_lt.mpr hn)
  exact this

theorem timeLoop_diverge {fl : ℚ → ℚ} {t0 dt stop : ℚ} (h : ∀ k, times fl t0 dt k < stop) :
    timeLoop fl t0 dt stop = .diverge :=
  Loop.run_diverge (fun s : ℚ × ℕ => s.1 < stop) (fun s => .ok () (fl (s.1 + dt), s.2 + 1))
    (fun k => (times fl t0 dt k, k)) (fun k => ⟨h k, rfl⟩)

/-- if a time reaches the end the loop ends at the first that does. -/
theorem timeLoop_first {fl : ℚ → ℚ} {t0 dt stop : ℚ} (h : ∃ n, stop ≤ times fl t0 dt n) :
    ∃ n, timeLoop fl t0 dt stop = .ok () (times fl t0 dt n, n) ∧ (∀ k < n, times fl t0 dt k < stop) ∧
      stop ≤ times fl t0 dt n := by
  classical
  exact ⟨Nat.find h, timeLoop_ok _ (fun k hk => not_le.mp (Nat.find_min h hk)) (Nat.find_spec h),
    fun k hk => not_le.mp (Nat.find_min h hk), Nat.find_spec h⟩

/-- the accumulated rounding error of `k` additions. -/
theorem times_err {t0 dt : ℚ} (hd : 0 < dt) (h0 : 0 ≤ t0) (h1 : t0 ≤ dt) (K : ℕ) (hK : (K : ℚ) * (K + 3) ≤ 2 ^ 53) :
    ∀ k ≤ K, |times fl53 t0 dt k - (t0 + k * dt)| ≤ k * (K + 3) / 2 ^ 53 * dt := by
  intro k
  induction k with
  | zero => intro _; simp [times]
  | succ k ih =>
    intro hk
    have hkq : (k : ℚ) + 1 ≤ K := by exact_mod_cast hk
    have hk0 : (0:ℚ) ≤ k := Nat.cast_nonneg k
    have e := ih (by omega)
    have hsmall : (k : ℚ) * (K + 3) / 2 ^ 53 * dt ≤ dt := by
      have : (k : ℚ) * (K + 3) / 2 ^ 53 ≤ 1 := by
        rw [div_le_one (by norm_num)]
        nlinarith
      nlinarith
    have hr := fl53_rel (times fl53 t0 dt k + dt)
    have e' := abs_le.mp e
    have hpos : |times fl53 t0 dt k + dt| ≤ (K + 3) * dt := by
      rw [abs_le]
      constructor <;> nlinarith [e'.1, e'.2]
    have hstep : |fl53 (times fl53 t0 dt k + dt) - (times fl53 t0 dt k + dt)| ≤ (K + 3) * dt / 2 ^ 53 :=
      hr.trans (by gcongr)
    have hs := abs_le.mp hstep
    simp only [times]
    push_cast
    rw [show ((k : ℚ) + 1) * (K + 3) / 2 ^ 53 * dt = k * (K + 3) / 2 ^ 53 * dt + (K + 3) * dt / 2 ^ 53 by ring, abs_le]
    constructor <;> linarith [hs.1, hs.2, e'.1, e'.2]

/-- evaluation of the rounding on a concrete number. -/
theorem fl53_eval2 {x : ℚ} (n : Nat) (r : ℚ) (e : Int) (hn : 2 ^ 52 < n) (hn2 : n < 2 ^ 53) (hr : -(1 / 2) ≤ r)
    (hr2 : r ≤ 1 / 2) (hev : n % 2 = 0 ∨ -(1 / 2) < r ∧ r < 1 / 2) (hx : x = (n + r) * (2:ℚ) ^ e) : fl53 x = n * (2:ℚ) ^ e := by
  have h2 : (0:ℚ) < (2:ℚ) ^ e := by positivity
  have hnq : (4503599627370497:ℚ) ≤ n := by exact_mod_cast hn
  have hnq2 : (n:ℚ) + 1 ≤ 9007199254740992 := by exact_mod_cast hn2
  have hpos : 0 < x := by rw [hx]; apply mul_pos _ h2; linarith
  have hlog : Int.log 2 x = e + 52 := by
    have l1 : (((2:ℕ):ℚ)) ^ (e + 52) ≤ x := by
      rw [hx, zpow_add₀ (by norm_num), mul_comm]
      push_cast
      refine mul_le_mul_of_nonneg_right ?_ h2.le
      norm_num
      linarith
    have l2 : x < (((2:ℕ):ℚ)) ^ (e + 53) := by
      rw [hx, zpow_add₀ (by norm_num), mul_comm ((((2:ℕ):ℚ)) ^ e)]
      push_cast
      refine mul_lt_mul_of_pos_right ?_ h2
      norm_num; linarith
    have a1 := (Int.zpow_le_iff_le_log (b := 2) (by norm_num) hpos).1 l1
    have a2 := (Int.lt_zpow_iff_log_lt (b := 2) (by norm_num) hpos).1 l2
    omega
  rw [fl53, if_pos hpos, fl53pos, hlog, show e + 52 - 52 = e by ring, hx, mul_div_assoc, div_self h2.ne', mul_one]
  have hre : roundEven ((n:ℚ) + r) = n := by
    obtain ⟨h, ht⟩ := roundEven_nearest ((n:ℚ) + r)
    have h' := abs_le.mp h
    have a' : roundEven ((n:ℚ) + r) ≤ n + 1 := by
      have : ((roundEven ((n:ℚ) + r) : Int) : ℚ) ≤ n + 1 := by linarith
      exact_mod_cast this
    have b' : (n:Int) - 1 ≤ roundEven ((n:ℚ) + r) := by
      have : (n:ℚ) - 1 ≤ ((roundEven ((n:ℚ) + r) : Int) : ℚ) := by linarith
      exact_mod_cast this
    generalize roundEven ((n:ℚ) + r) = m at *
    by_contra hne
    rcases (show m = n + 1 ∨ m = (n:Int) - 1 by omega) with rfl | rfl
    · push_cast at ht h'
      have hr' : r = 1 / 2 := le_antisymm hr2 (by linarith [h'.1])
      have := ht (by rw [hr', abs_of_neg (by linarith)]; ring)
      rcases hev with h | h
      · omega
      · linarith
    · push_cast at ht h'
      have hr' : r = -(1 / 2) := le_antisymm (by linarith [h'.2]) hr
      have := ht (by rw [hr', abs_of_pos (by linarith)]; ring)
      rcases hev with h | h
      · omega
      · linarith
  rw [hre]; push_cast; rfl

end Dbl
end Verif
