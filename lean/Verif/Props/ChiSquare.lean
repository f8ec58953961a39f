import Verif.Props.Gamma

/-!
# C147: a chi-square distribution stays one
-/

namespace Verif
namespace GammaD
open ProbabilityTheory

/-- specification: the degrees of freedom after a call; values that are not positive are rejected. -/
noncomputable def nextDegrees (k : ℝ) : Op → ℝ
  | .shape a => if a ≤ 0 then k else 2 * a
  | .degrees e => if e ≤ 0 then k else e
  | .invScale _ => k

/-- specification: density of the chi-square distribution with `k` degrees of freedom at a positive value. -/
noncomputable def chiSquareDensity (k x : ℝ) : ℝ := x ^ (k / 2 - 1) * Real.exp (-(x / 2)) / (2 ^ (k / 2) * Real.Gamma (k / 2))

/-- the object after a history of calls; a rejected call leaves the object its exception handler sees.  `ub` and `diverge` do not occur. -/
noncomputable def afterCalls (s : GammaD) (h : List Op) : GammaD := h.foldl (fun s o => ((o.run s).state?).getD s) s

theorem gamma_chiSquare {k x : ℝ} (hk : 0 < k) (hx : 0 < x) : gammaPDFReal (k / 2) (1 / 2) x = chiSquareDensity k x := by
  have hG : 0 < Real.Gamma (k / 2) := Real.Gamma_pos_of_pos (by positivity)
  have h2 : (0:ℝ) < 2 ^ (k / 2) := by positivity
  rw [gammaPDFReal, if_pos hx.le, chiSquareDensity, Real.div_rpow (by norm_num) (by norm_num), Real.one_rpow,
    show -(1 / 2 * x) = -(x / 2) by ring]
  field_simp

theorem reach_afterCalls (h : List Op) : ∀ s, Reach s → Reach (afterCalls s h) := by
  induction h with
  | nil => intro s hs; exact hs
  | cons o h ih =>
    intro s hs
    refine ih _ ?_
    cases e : (o.run s).state? with
    | none => simpa [e] using hs
    | some s' => simpa [e] using hs.step o e

theorem afterCalls_degrees (h : List Op) : ∀ s : GammaD, (∀ r, Op.invScale r ∉ h) →
    (afterCalls s h).invScale = s.invScale ∧ (afterCalls s h).getDegrees = h.foldl nextDegrees s.getDegrees := by
  induction h with
  | nil => intro s _; exact ⟨rfl, rfl⟩
  | cons o h ih =>
    intro s hh
    have key : ∃ s', ((o.run s).state?).getD s = s' ∧ s'.invScale = s.invScale ∧ s'.getDegrees = nextDegrees s.getDegrees o := by
      cases o with
      | shape a =>
        by_cases ha : a ≤ 0
        · exact ⟨s, by simp [Op.run, setShape, ha, Res.state?], rfl, by simp [nextDegrees, ha]⟩
        · exact ⟨⟨a, s.invScale, normalizer a s.invScale⟩, by simp [Op.run, setShape, ha, Res.state?], rfl,
            by simp [nextDegrees, ha, getDegrees, mul_comm]⟩
      | degrees e =>
        by_cases he : e ≤ 0
        · have he' : e * 0.5 ≤ 0 := mul_nonpos_of_nonpos_of_nonneg he (by norm_num)
          exact ⟨s, by simp only [Op.run, setDegrees, setShape, if_pos he', Res.state?, Option.getD_some], rfl, by simp [nextDegrees, he]⟩
        · have he' : ¬(e * 0.5 ≤ 0) := by
            rw [not_le] at he ⊢; positivity
          refine ⟨⟨e * 0.5, s.invScale, normalizer (e * 0.5) s.invScale⟩, ?_, rfl, ?_⟩
          · simp only [Op.run, setDegrees, setShape, if_neg he', Res.state?, Option.getD_some]
          · simp only [nextDegrees, if_neg he, getDegrees]; ring
      | invScale r => exact absurd List.mem_cons_self (hh r)
    obtain ⟨s', e1, e2, e3⟩ := key
    obtain ⟨i1, i2⟩ := ih s' fun r hr => hh r (List.mem_cons_of_mem _ hr)
    have e : afterCalls s (o :: h) = afterCalls s' h := by rw [← e1]; rfl
    rw [e, List.foldl_cons, ← e3]
    exact ⟨i1.trans e2, i2⟩

/-- **C147** (partial): a chi-square distribution after any history of calls other than `setInvScale`: the degrees of freedom are those of
the last accepted call, the mean is their number, the variance twice their number, and `pdf` is the chi-square density.  Missing:
`setInvScale` (`C147_inverse_scale`). -/
theorem C147_chi_square_partial (raw s : GammaD) (d : ℝ) (h : List Op) (hs : chiSquare raw d = .ok () s) (hh : ∀ r, Op.invScale r ∉ h) :
    let t := afterCalls s h
    let k := h.foldl nextDegrees d
    0 < k ∧ t.getDegrees = k ∧ t.getMean = k ∧ t.getVariance = 2 * k ∧ ∀ x, 0 < x → t.pdf x = some (chiSquareDensity k x) := by
  intro t k
  obtain ⟨c, c1, c2⟩ := ctor_cons hs
  have hsd : s.getDegrees = d := by rw [getDegrees, c1]; ring
  obtain ⟨a1, a2⟩ := afterCalls_degrees h s hh
  rw [hsd] at a2
  have hr : Reach t := reach_afterCalls h s (.initChi hs)
  have hc := reach_cons hr
  have hi : t.invScale = 1 / 2 := by rw [a1, c2]; norm_num
  have hsh : t.shape = k / 2 := by
    have : t.shape * 2 = k := a2
    linarith
  have hk : 0 < k := by
    have := hc.1
    rw [hsh] at this; linarith
  refine ⟨hk, a2, ?_, ?_, ?_⟩
  · rw [getMean, hsh, hi]; ring
  · rw [getVariance, hsh, hi]; ring
  · intro x hx
    rw [(C57_pdf hr).1 x hx.ne', hsh, hi, gamma_chiSquare hk hx]

/-- **C147** (negation): the setter of the inverse scale is inherited.  Four degrees of freedom, inverse scale one: the object still
reports four degrees of freedom, with mean two. -/
theorem C147_inverse_scale : ∃ raw s, chiSquare raw 4 = .ok () s ∧ (afterCalls s [.invScale 1]).getDegrees = 4 ∧
    (afterCalls s [.invScale 1]).getMean = 2 := by
  refine ⟨⟨0, 0, 0⟩, ⟨0.5 * 4, 0.5, normalizer (0.5 * 4) 0.5⟩, ?_, ?_, ?_⟩
  · unfold chiSquare ctor setShape
    rw [if_neg (by norm_num)]
    simp only [Res.bind, setInvScale]
    rw [if_neg (by norm_num)]
  · simp [afterCalls, Op.run, setInvScale, Res.state?, getDegrees]; norm_num
  · simp [afterCalls, Op.run, setInvScale, Res.state?, getMean]; norm_num

/-- a case: four degrees of freedom, a rejected call, then six. -/
example : ∃ raw s, chiSquare raw 4 = .ok () s ∧ (afterCalls s [.degrees (-1), .shape 3]).getMean = 6 := by
  obtain ⟨s, -, hs, -⟩ := C57_chi_square ⟨0, 0, 0⟩ 4 1 (by norm_num) one_pos
  obtain ⟨-, -, h, -⟩ := C147_chi_square_partial ⟨0, 0, 0⟩ s 4 [.degrees (-1), .shape 3] hs (by simp)
  exact ⟨_, s, hs, by rw [h]; norm_num [nextDegrees]⟩

end GammaD
end Verif
