import Verif.Model.DoubleGain
import Verif.Lemmas.Double
import Verif.Lemmas.DoubleTimestamp
import Verif.Props.Estimator

/-!
# C151: the information gain in double arithmetic
-/

namespace Verif
variable {V M : Type _}

theorem isDouble_half {x : ℚ} (h : IsDouble x) : IsDouble (1 / 2 * x) := by
  obtain ⟨m, e, h1, rfl⟩ := h
  refine ⟨m, e - 1, h1, ?_⟩
  rw [zpow_sub_one₀ (by norm_num)]; ring

theorem isDouble_twice {x : ℚ} (h : IsDouble x) : IsDouble (2 * x) := by
  obtain ⟨m, e, h1, rfl⟩ := h
  refine ⟨m, e + 1, h1, ?_⟩
  rw [zpow_add_one₀ (by norm_num)]; ring

theorem halfDiff_eq (a b : ℚ) : dblRounded.halfDiff a b = fl53 (a - b) / 2 := by
  show fl53 (1 / 2 * fl53 (a - b)) = _
  rw [fl53_fix (isDouble_half (fl53_nearest _).1)]; ring

/-- the rounding error of a gain, relative to the gain. -/
theorem halfDiff_err (a b : ℚ) : |dblRounded.halfDiff a b - (a - b) / 2| ≤ |dblRounded.halfDiff a b| / (2 ^ 53 - 1) := by
  rw [halfDiff_eq]
  have h := fl53_rel (a - b)
  have h2 : |a - b| ≤ |fl53 (a - b)| + |fl53 (a - b) - (a - b)| := by
    have := abs_sub_abs_le_abs_sub (a - b) (fl53 (a - b))
    rw [abs_sub_comm (a - b) (fl53 (a - b))] at this; linarith
  rw [show fl53 (a - b) / 2 - (a - b) / 2 = (fl53 (a - b) - (a - b)) / 2 by ring, abs_div, abs_div, abs_of_pos (show (0:ℚ) < 2 by norm_num),
    div_right_comm]
  refine div_le_div_of_nonneg_right ?_ (by norm_num)
  rw [le_div_iff₀ (by norm_num)]
  rw [le_div_iff₀ (by norm_num)] at h
  nlinarith

/-- the comparison with the threshold: never too generous, and too strict by at most one part in `2^52`. -/
theorem gain_gt {a b δ : ℚ} (hδ : IsDouble δ) :
    (δ < dblRounded.halfDiff a b → δ < (a - b) / 2) ∧ (δ + |δ| / 2 ^ 52 < (a - b) / 2 → δ < dblRounded.halfDiff a b) := by
  rw [halfDiff_eq]
  have hd : fl53 (2 * δ) = 2 * δ := fl53_fix (isDouble_twice hδ)
  constructor
  · intro h
    by_contra hn
    have := fl53_mono (show a - b ≤ 2 * δ by linarith)
    linarith
  · intro h
    by_contra hn
    have hle : fl53 (a - b) ≤ 2 * δ := by linarith
    have hnn : 0 ≤ |δ| / 2 ^ 52 := by positivity
    have hge : 2 * δ ≤ fl53 (a - b) := by
      have := fl53_mono (show 2 * δ ≤ a - b by linarith)
      linarith
    have herr := fl53_rel (a - b)
    have he : fl53 (a - b) = 2 * δ := le_antisymm hle hge
    rw [he] at herr
    have h1 : a - b - 2 * δ ≤ |a - b| / 2 ^ 53 := by
      have := (abs_le.1 herr).1; linarith
    have h2 : |a - b| ≤ |2 * δ| + |2 * δ - (a - b)| := by
      have := abs_sub_abs_le_abs_sub (a - b) (2 * δ)
      rw [abs_sub_comm (a - b) (2 * δ)] at this; linarith
    rw [abs_mul, abs_of_pos (show (0:ℚ) < 2 by norm_num), abs_of_nonpos (show 2 * δ - (a - b) ≤ 0 by linarith)] at h2
    rw [le_div_iff₀ (by positivity)] at h1
    have h3 : |δ| / 2 ^ 52 * 2 ^ 52 = |δ| := by field_simp
    have h4 : 0 ≤ |δ| := abs_nonneg _
    nlinarith

/-- **C151** (acceptance): the estimator computes with doubles; its threshold is a double.  A batch accepted without force and without an increase of the
rank has an exact information gain above the threshold, and without force only valid solutions are accepted; an exact gain above the threshold by more than one part in `2^52`, with a
valid solution, is accepted; a reported gain is zero just if the log sums are equal, and has the sign of their difference. -/
theorem C151_acceptance {m0 : M} {mo : ℚ} {g : GroupId} {o : EstOptions ℚ} {h0 : Heap V} {w w' : EWorld V ℚ M}
    (h : EReach dblRounded m0 (EWorld.fresh dblRounded mo m0 g o h0) w) (hδ : IsDouble w.est.options.infoGainDelta)
    {b : BatchId} {force buildOk : Bool} {oracle : OptInput V → OptCall V ℚ M} {r : RetVal ℚ M}
    (hres : w.addBatch dblRounded m0 oracle buildOk (some b) force = .ok r w') :
    (r.batchAccepted = true → force = false →
      (r.marginal.rankTheta ≤ w.est.stats.marginal.rankTheta →
        w.est.options.infoGainDelta < (r.marginal.svLog2Sum - w.est.stats.marginal.svLog2Sum) / 2) ∧
      (w.est.options.checkValidity = true → r.srv.iterations ≠ w.est.options.maxIterations ∧ r.srv.JFinal < r.srv.JStart)) ∧
    (w.est.options.infoGainDelta + |w.est.options.infoGainDelta| / 2 ^ 52 <
        (r.marginal.svLog2Sum - w.est.stats.marginal.svLog2Sum) / 2 →
      w.est.options.checkValidity = false ∨ r.srv.iterations ≠ w.est.options.maxIterations ∧ r.srv.JFinal < r.srv.JStart →
      r.batchAccepted = true) ∧
    (r.informationGain = 0 ↔ r.marginal.svLog2Sum = w.est.stats.marginal.svLog2Sum) ∧
    (0 < r.informationGain ↔ w.est.stats.marginal.svLog2Sum < r.marginal.svLog2Sum) ∧
    |r.informationGain - (r.marginal.svLog2Sum - w.est.stats.marginal.svLog2Sum) / 2| ≤ |r.informationGain| / (2 ^ 53 - 1) := by
  obtain ⟨h1, h2, -⟩ := C19_acceptance_rule h hres
  have herr := halfDiff_err r.marginal.svLog2Sum w.est.stats.marginal.svLog2Sum
  rw [← h2] at herr
  have hgt := gain_gt (a := r.marginal.svLog2Sum) (b := w.est.stats.marginal.svLog2Sum) hδ
  rw [← h2] at hgt
  have hz := gain_gt (a := r.marginal.svLog2Sum) (b := w.est.stats.marginal.svLog2Sum) isDouble_zero
  rw [← h2] at hz
  have hpos : 0 < r.informationGain ↔ w.est.stats.marginal.svLog2Sum < r.marginal.svLog2Sum :=
    ⟨fun h => by linarith [hz.1 h], fun h => hz.2 (by simp; linarith)⟩
  refine ⟨?_, ?_, ?_, hpos, herr⟩
  · intro ha hf
    rcases h1.1 ha with hf' | ⟨hg, hv⟩
    · rw [hf] at hf'; cases hf'
    · refine ⟨fun hrk => ?_, fun hc => ?_⟩
      · rcases hg with hg | hg
        · exact hgt.1 (by simpa [dblRounded] using hg)
        · omega
      · refine ⟨fun hi => hv ⟨hc, .inl hi⟩, ?_⟩
        by_contra hn
        exact hv ⟨hc, .inr (by simpa [dblRounded] using hn)⟩
  · intro hg hv
    refine h1.2 (.inr ⟨.inl (by simpa [dblRounded] using hgt.2 hg), ?_⟩)
    rintro ⟨hc, hi⟩
    rcases hv with hv | ⟨hv1, hv2⟩
    · rw [hv] at hc; cases hc
    · rcases hi with hi | hi
      · exact hv1 hi
      · simp only [dblRounded, decide_eq_true_eq] at hi; linarith
  · constructor
    · intro h
      rw [h] at herr
      simp only [abs_zero, zero_div, zero_sub, abs_neg] at herr
      have := abs_nonpos_iff.1 herr
      linarith
    · intro h
      rw [h2, halfDiff_eq, h, sub_self, fl53_fix isDouble_zero]; simp

/-- **C151** (telescoping): over any program of `addBatch` calls (interleaved with calls on batches and option changes) the reported gains of the
accepted batches sum to half of the increase of the log sum, up to the sum of their magnitudes divided by `2^53 - 1`. -/
theorem C151_telescope {m0 : M} {mo : ℚ} {g : GroupId} {o : EstOptions ℚ} {h0 : Heap V} {w0 w : EWorld V ℚ M}
    (h : EReach dblRounded m0 (EWorld.fresh dblRounded mo m0 g o h0) w0) (ops : List (EOp V ℚ M)) (obs : List (EObs ℚ M))
    (hops : ∀ op ∈ ops, (∃ b f oc bo, op = .addBatch b f oc bo) ∨ (∃ b bop, op = .batch b bop) ∨ ∃ o, op = .setOptions o)
    (hrun : EOp.run dblRounded m0 ops w0 = some (obs, w)) :
    |(acceptedGains obs).sum - (w.est.stats.marginal.svLog2Sum - w0.est.stats.marginal.svLog2Sum) / 2| ≤
      ((acceptedGains obs).map abs).sum / (2 ^ 53 - 1) := by
  induction ops generalizing w0 obs with
  | nil =>
    simp [EOp.run] at hrun
    obtain ⟨rfl, rfl⟩ := hrun
    simp [acceptedGains]
  | cons op ops ih =>
    obtain ⟨ob, os', w1, rfl, hreg, hs, hrest⟩ := run_cons hrun
    obtain ⟨ok, hok⟩ := observe_outcome hs
    have hw1 := h.step op hreg hok
    have ih := ih hw1 os' (fun op hop => hops op (by simp [hop])) hrest
    have hstat := C50_statistics h op hreg ob hs
    have happ : acceptedGains (ob :: os') = acceptedGains [ob] ++ acceptedGains os' := by
      unfold acceptedGains
      rw [← List.filterMap_append]; rfl
    have hskip : acceptedGains [ob] = [] → w1.est.stats = w0.est.stats →
        |(acceptedGains (ob :: os')).sum - (w.est.stats.marginal.svLog2Sum - w0.est.stats.marginal.svLog2Sum) / 2| ≤
          ((acceptedGains (ob :: os')).map abs).sum / (2 ^ 53 - 1) := by
      intro hn hst
      rw [happ, hn, List.nil_append, ← hst]; exact ih
    rcases hops op (by simp) with ⟨b, f, oc, bo, rfl⟩ | ⟨b, bop, rfl⟩ | ⟨o, rfl⟩
    · rcases ob with _ | _ | r
      · exact hskip (by simp [acceptedGains]) hstat
      · exact absurd hstat (by simp [StatsSpec])
      · simp only [StatsSpec] at hstat
        by_cases hacc : r.batchAccepted = true
        · rw [if_pos hacc] at hstat
          have hgain : r.informationGain = dblRounded.halfDiff w1.est.stats.marginal.svLog2Sum w0.est.stats.marginal.svLog2Sum := by
            cases hr : w0.addBatch dblRounded m0 oc bo b f with
            | ok r' w' =>
              simp [EOp.step, hr, Res.bind, Res.observe] at hs
              obtain ⟨rfl, rfl⟩ := hs
              obtain ⟨b', hb', -⟩ := addBatch_ok_addable h.inv hr
              subst hb'
              rw [(C19_acceptance_rule h hr).2.1, hstat]; rfl
            | _ => simp [EOp.step, hr, Res.bind, Res.observe] at hs
          have herr := halfDiff_err w1.est.stats.marginal.svLog2Sum w0.est.stats.marginal.svLog2Sum
          rw [← hgain] at herr
          have hone : acceptedGains [(some (some r) : EObs ℚ M)] = [r.informationGain] := by simp [acceptedGains, hacc]
          rw [happ, hone, List.singleton_append, List.sum_cons, List.map_cons, List.sum_cons, add_div]
          refine le_trans ?_ (add_le_add herr ih)
          refine le_trans (le_of_eq ?_) (abs_add_le _ _)
          congr 1; ring
        · rw [if_neg hacc] at hstat
          exact hskip (by simp [acceptedGains, hacc]) hstat
    · refine hskip ?_ hstat
      simp only [EOp.step] at hs
      cases hb : bop.step (w0.B b, w0.heap) <;> simp [hb, Res.mapState, Res.bind, Res.observe] at hs <;>
        obtain ⟨rfl, -⟩ := hs <;> simp [acceptedGains]
    · refine hskip ?_ hstat
      simp [EOp.step, Res.observe] at hs
      obtain ⟨rfl, -⟩ := hs; simp [acceptedGains]

/-- an optimizer that reports the log sum `sv`. -/
def oracleQ (sv : ℚ) : OptInput Nat → OptCall Nat ℚ Nat := fun i =>
  { params := i.heap.params
    layout := ⟨fun _ => 5, fun _ => 5, fun _ => 5, [], []⟩
    report := some (⟨5, 10, 4⟩, ⟨1, 2, 3, 4, 5⟩)
    marginal := some ⟨sv, 1, 1, 1, 1, 1, 0, 0, -1, 0, 2, 0, 100, 50, 3⟩ }

/-- a fresh estimator with threshold 1/2. -/
def estQ : EWorld Nat ℚ Nat := EWorld.fresh dblRounded (-1) 0 1 ⟨1 / 2, true, 20, true⟩ heap0

/-- batches 0 and 1, each with a calibration variable. -/
def qbatches : List (EOp Nat ℚ Nat) :=
  [.batch 0 (.addDV (some 5) 1), .batch 0 (.addDV (some 3) 0), .batch 0 (.addET (some 9)), .batch 1 (.addDV (some 5) 1),
    .batch 1 (.addDV (some 8) 2), .batch 1 (.addET (some 8))]

set_option synthInstance.maxSize 1000 in
/-- **C151** (what rounding does): log sums `1` and `2^54`: the gains of the two accepted batches sum to `2^53 + 1/2` instead of `2^53`.  Log sums
`-2^(-54)` (forced) and `1` with the threshold 1/2: the second batch, whose exact gain is above 1/2, is rejected. -/
theorem C151_rounded :
    ((EOp.run dblRounded 0 (qbatches ++ [.setOptions ⟨1 / 4, true, 20, true⟩, .addBatch (some 0) false (oracleQ 1) true,
        .addBatch (some 1) false (oracleQ (2 ^ 54)) true]) estQ).map fun x => (acceptedGains x.1, x.2.est.stats.marginal.svLog2Sum)) =
      some ([1 / 2, 2 ^ 53], 2 ^ 54) ∧
    estQ.est.stats.marginal.svLog2Sum = 0 ∧ (1 / 2 + 2 ^ 53 : ℚ) ≠ (2 ^ 54 - 0) / 2 ∧
    ((EOp.run dblRounded 0 (qbatches ++ [.addBatch (some 0) true (oracleQ (-1 / 2 ^ 54)) true,
        .addBatch (some 1) false (oracleQ 1) true]) estQ).map fun x =>
        (flags (x.1.drop 6), x.2.est.stats.marginal.svLog2Sum, x.2.est.options.infoGainDelta, x.2.est.options.checkValidity)) =
      some ([some (some true), some (some false)], -1 / 2 ^ 54, 1 / 2, true) ∧
    (1 / 2 : ℚ) < (1 - -1 / 2 ^ 54) / 2 := by
  refine ⟨by decide +kernel, by decide +kernel, by norm_num, by decide +kernel, by norm_num⟩

set_option synthInstance.maxSize 1000 in
/-- non-vacuity: a reachable estimator, a double as threshold, and a batch accepted without force by its gain. -/
example : ∃ w r w', EReach dblRounded 0 estQ w ∧ IsDouble w.est.options.infoGainDelta ∧
    w.addBatch dblRounded 0 (oracleQ 3) true (some 1) false = .ok r w' ∧ r.batchAccepted = true ∧ r.informationGain = 1 := by
  cases hw : EOp.run dblRounded 0 (qbatches ++ [.addBatch (some 0) true (oracleQ 1) true]) estQ with
  | none =>
    have : (EOp.run dblRounded 0 (qbatches ++ [.addBatch (some 0) true (oracleQ 1) true]) estQ).isSome = true := by decide +kernel
    rw [hw] at this; cases this
  | some x =>
    have h2 : (EOp.run dblRounded 0 (qbatches ++ [.addBatch (some 0) true (oracleQ 1) true]) estQ).map (fun x =>
        (x.2.est.options.infoGainDelta, (x.2.addBatch dblRounded 0 (oracleQ 3) true (some 1) false).view fun _ => ()).map id fun o =>
          o.map fun y => (y.1.batchAccepted, y.1.informationGain)) = some (1 / 2, some (true, 1)) := by decide +kernel
    rw [hw] at h2
    simp only [Option.map_some, Prod.map, id, Option.some.injEq, Prod.mk.injEq] at h2
    cases hr : x.2.addBatch dblRounded 0 (oracleQ 3) true (some 1) false with
    | ok r w' =>
      rw [hr] at h2
      simp [Res.view] at h2
      exact ⟨x.2, r, w', reach_of_run .init hw, by rw [h2.1]; exact ⟨1, -1, by norm_num, by norm_num⟩, hr, h2.2.1, h2.2.2⟩
    | _ => rw [hr] at h2; simp [Res.view] at h2

end Verif
