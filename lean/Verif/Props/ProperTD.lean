import Verif.Props.Proper
import Verif.Props.TDMain

/-! Property C126 for the simulation program of the time delay example. -/

namespace Verif
namespace Proper
variable {K M E B G P : Type} [DecidableEq K] {c : WinCfg K M E B G P} {D : (K → List M) → List M → Prop} {I : Nat → E → Prop}
  {X : Exc → Prop}

/-- a program without handlers: additions, and perhaps a submission by hand at the end. -/
theorem win_program (hc : WProvides c D I X) {lo hi : Int} (hlh : hi - lo ≤ 9223372036854775807) (ms : List M) (s : Win K M E G P)
    (u : Win K M E G P → Bool) (h : WinInv c lo hi D I s (ms.map Win.Op.add ++ [.flush])) :
    (∃ s', ((Win.runOps c s (ms.map Win.Op.add)).bind fun _ s => if u s then s.addMeasurements c else .ok () s) = .ok () s') ∨
    ∃ x s', ((Win.runOps c s (ms.map Win.Op.add)).bind fun _ s => if u s then s.addMeasurements c else .ok () s) = .throw x s' ∧ X x := by
  have := runOps_inv (step := fun s op => Win.Op.run c s op) (fun s ops => WinInv c lo hi D I s (ops ++ [.flush])) X (Win.runOps c)
    (fun s => rfl) (fun s op ops => rfl) (fun s op ops hs => win_step hc hlh s op (ops ++ [.flush]) hs) (ms.map Win.Op.add) s h
  rcases this with ⟨s1, h1, hi1⟩ | ⟨x, s1, h1, hx⟩
  · rw [h1]
    simp only [Res.bind]
    cases u s1
    · exact Or.inl ⟨s1, rfl⟩
    · simp only [if_true]
      rcases win_step hc hlh s1 .flush [] hi1 with ⟨s2, h2, -⟩ | ⟨x, s2, h2, hx, -⟩
      · exact Or.inl ⟨s2, h2⟩
      · exact Or.inr ⟨x, s2, h2, hx⟩
  · rw [h1]
    exact Or.inr ⟨x, s1, rfl, hx⟩

end Proper

namespace SimTD
open Proper
variable {E G P V : Type}

/-- the times of the measurements of a simulation with `n` steps. -/
noncomputable def stamps (env : Env) (p : Params) (n : ℕ) : List Int :=
  (List.range n).flatMap fun i : ℕ => [(i : ℤ) * env.ns p.dt + env.ns p.t_r, (i : ℤ) * env.ns p.dt + env.ns p.t_l,
    (i : ℤ) * env.ns p.dt + env.ns (p.dt * 0.5)]

theorem order_times (f : ℕ → TD.Sensor → TD.Meas) (l : List ℕ) :
    (order f l).map TD.Meas.t = l.flatMap fun i => [(f i .right).t, (f i .left).t, (f i .pose).t] := by
  induction l with
  | nil => rfl
  | cons i l ih => simp [order, List.flatMap_cons] at ih ⊢; exact ih

/-- **C126**, simulation program of the time delay example: with valid parameters, a step of at least a nanosecond and simulated times that
fit, the program returns or ends with an exception of the spline fitter or of the estimator; it runs into no undefined behaviour
and does not run forever. -/
theorem C126_time_delay_program {env : Env} {p : Params} {cenv : TD.Env E G P V} {o : TD.Opt} {X : Exc → Prop} (val : ℝ → ℚ) (e : E)
    (hv : p.Valid) (hd : 0 < p.dt) (hns : 0 < env.ns p.dt) (hk : 0 ≤ o.knots)
    (ht : ∀ n, p.Steps n → TimesFit o.knots (stamps env p n)) (he : ∀ n, p.Steps n → Answers cenv.addBatch X (3 * n + 1) e) :
    (∃ s, main env p cenv o val e = .ok () s) ∨
    ∃ x s, main env p cenv o val e = .throw x s ∧ (X x ∨ ∃ e l n, cenv.fit e l n = some x) := by
  obtain ⟨n, d, hn, hsim, hr, hl, hp, h1, h2, h3⟩ := simulate_new env p hv hd
  have htm : ∀ i < n, (measAt val d i .right).t = (i : ℤ) * env.ns p.dt + env.ns p.t_r ∧
      (measAt val d i .left).t = (i : ℤ) * env.ns p.dt + env.ns p.t_l ∧
      (measAt val d i .pose).t = (i : ℤ) * env.ns p.dt + env.ns (p.dt * 0.5) := by
    intro i hi
    obtain ⟨a, ha, ha'⟩ := Option.map_eq_some_iff.1 (h1 i hi)
    obtain ⟨b, hb, hb'⟩ := Option.map_eq_some_iff.1 (h2 i hi)
    obtain ⟨q, hq, hq'⟩ := Option.map_eq_some_iff.1 (h3 i hi)
    refine ⟨?_, ?_, ?_⟩
    · simp only [measAt, ha, rightMeas, ha']
    · simp only [measAt, hb, leftMeas, hb']
    · simp only [measAt, hq, poseMeas, hq']
  have hadd : Win.added ((order (measAt val d) (List.range n)).map Win.Op.add ++ [.flush]) = order (measAt val d) (List.range n) := by
    unfold Win.added
    rw [List.filterMap_append, List.filterMap_map]
    simp
  have hlen : ((order (measAt val d) (List.range n)).map (Win.Op.add (M := TD.Meas)) ++ [Win.Op.flush]).length = 3 * n + 1 := by
    simp [order, List.length_flatMap, Nat.mul_comm]
  have htimes : (order (measAt val d) (List.range n)).map TD.Meas.t = stamps env p n := by
    rw [order_times, stamps]
    apply List.flatMap_congr
    intro i hi
    obtain ⟨a, b, q⟩ := htm i (List.mem_range.1 hi)
    rw [a, b, q]
  obtain ⟨lo, hi, f1, f2, f3⟩ := ht n hn
  rw [main_eq cenv o val e hsim hr hl hp]
  refine win_program (TD.provides hk f3) f2 _ _ _ (TD.proper_start (by rw [hadd, htimes]; exact f1) ?_ ?_)
  · rw [hadd, order_sensor (measAt_kind val d), List.map_map, List.pairwise_map]
    refine List.Pairwise.imp_of_mem ?_ List.pairwise_lt_range
    intro a b ha hb hab
    have hab' : (a : ℤ) < b := by exact_mod_cast hab
    simp only [Function.comp, (htm a (List.mem_range.1 ha)).2.2, (htm b (List.mem_range.1 hb)).2.2]
    nlinarith
  · rw [hlen]
    exact Answers.mono (fun x hx => Or.inl hx) _ _ (he n hn)

end SimTD
end Verif
