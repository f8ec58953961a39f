import Verif.Model.TsvdAdapter
import Mathlib.Tactic.NormNum.Inv

/-! Property C106: the linear solver adapter. -/

namespace Verif
namespace Tsvd
variable {S J M V D : Type}

/-- **C106**: an option is the entry of the property tree under its name if there is one, otherwise the default; no option
depends on any other entry. -/
theorem C106_options (dflt : Options) (t : Tree) :
    (∀ b, t.bool "columnScaling" = some b → (optionsOf dflt t).columnScaling = b) ∧
    (t.bool "columnScaling" = none → (optionsOf dflt t).columnScaling = dflt.columnScaling) ∧
    (∀ b, t.bool "verbose" = some b → (optionsOf dflt t).verbose = b) ∧
    (t.bool "verbose" = none → (optionsOf dflt t).verbose = dflt.verbose) ∧
    (∀ x, t.double "epsNorm" = some x → (optionsOf dflt t).epsNorm = x) ∧
    (t.double "epsNorm" = none → (optionsOf dflt t).epsNorm = dflt.epsNorm) ∧
    (∀ x, t.double "epsSVD" = some x → (optionsOf dflt t).epsSVD = x) ∧
    (t.double "epsSVD" = none → (optionsOf dflt t).epsSVD = dflt.epsSVD) ∧
    (∀ x, t.double "epsQR" = some x → (optionsOf dflt t).epsQR = x) ∧
    (t.double "epsQR" = none → (optionsOf dflt t).epsQR = dflt.epsQR) ∧
    (∀ x, t.double "svdTol" = some x → (optionsOf dflt t).svdTol = x) ∧
    (t.double "svdTol" = none → (optionsOf dflt t).svdTol = dflt.svdTol) ∧
    (∀ x, t.double "qrTol" = some x → (optionsOf dflt t).qrTol = x) ∧
    (t.double "qrTol" = none → (optionsOf dflt t).qrTol = dflt.qrTol) := by
  refine ⟨?_, ?_, ?_, ?_, ?_, ?_, ?_, ?_, ?_, ?_, ?_, ?_, ?_, ?_⟩ <;>
    first | (intro x h; simp [optionsOf, h]) | (intro h; simp [optionsOf, h])

/-- **C106**: `solveSystem` returns the solution of the truncated SVD solver for the Jacobian built last, the right hand side
built last and the marginalisation index set last; it reports failure exactly if the transposed matrix could not be allocated,
and then leaves argument and solver alone. -/
theorem C106_solve (lib : Lib S J M V D) (s : Solver S J V) (dx : V) :
    (lib.transpose s.jac = none → solveSystem lib s dx = .ok (false, dx) s) ∧
    (∀ m x t, lib.transpose s.jac = some m → lib.solve s.svd m s.e s.marg = .ok x t →
      ∃ s', solveSystem lib s dx = .ok (true, x) s' ∧ s'.svd = t ∧ s'.jac = s.jac ∧ s'.e = s.e ∧ s'.marg = s.marg) ∧
    (∀ m ex t, lib.transpose s.jac = some m → lib.solve s.svd m s.e s.marg = .throw ex t →
      ∃ s', solveSystem lib s dx = .throw ex s' ∧ s'.svd = t ∧ s'.jac = s.jac ∧ s'.e = s.e ∧ s'.marg = s.marg) := by
  refine ⟨fun h => by simp [solveSystem, h], fun m x t h1 h2 => ?_, fun m ex t h1 h2 => ?_⟩
  · exact ⟨{ s with svd := t, live := s.live + 1 - 1 }, by simp [solveSystem, h1, h2], rfl, rfl, rfl, rfl⟩
  · exact ⟨{ s with svd := t, live := s.live + 1 }, by simp [solveSystem, h1, h2], rfl, rfl, rfl, rfl⟩

/-- **C106**: building and initialising: what `solveSystem` sees afterwards. -/
theorem C106_build (lib : Lib S J M V D) (s : Solver S J V) (n : Nat) (b : Bool) (dvs : D) :
    (buildSystem lib s n b).jac = (lib.build s.jac n b).1 ∧ (buildSystem lib s n b).e = (lib.build s.jac n b).2 ∧
    (buildSystem lib s n b).svd = s.svd ∧ (buildSystem lib s n b).marg = s.marg ∧
    initMatrixStructure lib s dvs true = .abort ∧
    initMatrixStructure lib s dvs false = .res (.ok () { s with svd := lib.clear s.svd, jac := lib.init s.jac dvs }) :=
  ⟨rfl, rfl, rfl, rfl, rfl, rfl⟩

/-- **C106**: `analyzeMarginal` returns false exactly if the transposed matrix could not be allocated, and otherwise analyses
the Jacobian built last with the index set last. -/
theorem C106_analyze (lib : Lib S J M V D) (s : Solver S J V) :
    (lib.transpose s.jac = none → analyzeMarginal lib s = .ok false s) ∧
    (∀ m t, lib.transpose s.jac = some m → lib.analyze s.svd m s.marg = .ok () t →
      analyzeMarginal lib s = .ok true { s with svd := t }) ∧
    (∀ m ex t, lib.transpose s.jac = some m → lib.analyze s.svd m s.marg = .throw ex t →
      analyzeMarginal lib s = .throw ex { s with svd := t }) := by
  refine ⟨fun h => by simp [analyzeMarginal, h], fun m t h1 h2 => ?_, fun m ex t h1 h2 => ?_⟩ <;>
    simp [analyzeMarginal, h1, h2]

/-- solvers that exist after any sequence of calls that neither ended the process nor was undefined; the number
counts the `solveSystem` calls that threw. -/
inductive Hist (lib : Lib S J M V D) (s0 : Solver S J V) : Solver S J V → Nat → Prop
  | nil : Hist lib s0 s0 0
  | ok {s s' : Solver S J V} {k : Nat} (c : Call V D) : Hist lib s0 s k → c.run lib s = .res (.ok () s') → Hist lib s0 s' k
  | thrown {s s' : Solver S J V} {k : Nat} (c : Call V D) (ex : Exc) : Hist lib s0 s k →
      c.run lib s = .res (.throw ex s') → Hist lib s0 s' (match c with | .solve _ => k + 1 | _ => k)

/-- **C106**: temporary matrices are freed, but for one per `solveSystem` that threw. -/
theorem C106_memory_partial {lib : Lib S J M V D} {s0 s : Solver S J V} {k : Nat} (h : Hist lib s0 s k) :
    s.live = s0.live + k := by
  induction h with
  | nil => rfl
  | @ok s s' k c _ hr ih =>
    rw [← ih]
    cases c with
    | setMarg i =>
      simp only [Call.run, Out.res.injEq, Res.ok.injEq, true_and] at hr
      rw [← hr]
    | build n b =>
      simp only [Call.run, Out.res.injEq, Res.ok.injEq, true_and] at hr
      rw [← hr]; rfl
    | init d c =>
      cases c
      · simp only [Call.run, initMatrixStructure, Bool.false_eq_true, if_false, Out.res.injEq, Res.ok.injEq, true_and] at hr
        rw [← hr]
      · simp [Call.run, initMatrixStructure] at hr
    | solve dx =>
      simp only [Call.run, Out.res.injEq, solveSystem] at hr
      cases ht : lib.transpose s.jac with
      | none => simp only [ht, Res.bind, Res.ok.injEq, true_and] at hr; rw [← hr]
      | some m =>
        simp only [ht] at hr
        cases hs : lib.solve s.svd m s.e s.marg with
        | ok x t => simp only [hs, Res.bind, Res.ok.injEq, true_and] at hr; rw [← hr]; simp
        | throw ex t => simp [hs, Res.bind] at hr
        | ub => simp [hs, Res.bind] at hr
        | diverge => simp [hs, Res.bind] at hr
    | analyze =>
      simp only [Call.run, Out.res.injEq, analyzeMarginal] at hr
      cases ht : lib.transpose s.jac with
      | none => simp only [ht, Res.bind, Res.ok.injEq, true_and] at hr; rw [← hr]
      | some m =>
        simp only [ht] at hr
        cases hs : lib.analyze s.svd m s.marg with
        | ok x t => simp only [hs, Res.bind, Res.ok.injEq, true_and] at hr; rw [← hr]; simp
        | throw ex t => simp [hs, Res.bind] at hr
        | ub => simp [hs, Res.bind] at hr
        | diverge => simp [hs, Res.bind] at hr
  | @thrown s s' k c ex _ hr ih =>
    cases c with
    | setMarg i => simp [Call.run] at hr
    | build n b => simp [Call.run] at hr
    | init d c => cases c <;> simp [Call.run, initMatrixStructure] at hr
    | solve dx =>
      simp only [Call.run, Out.res.injEq, solveSystem] at hr
      cases ht : lib.transpose s.jac with
      | none => simp [ht, Res.bind] at hr
      | some m =>
        simp only [ht] at hr
        cases hs : lib.solve s.svd m s.e s.marg with
        | ok x t => simp [hs, Res.bind] at hr
        | throw ex' t =>
          simp only [hs, Res.bind, Res.throw.injEq] at hr
          rw [← hr.2]; simp [ih]; omega
        | ub => simp [hs, Res.bind] at hr
        | diverge => simp [hs, Res.bind] at hr
    | analyze =>
      simp only [Call.run, Out.res.injEq, analyzeMarginal] at hr
      cases ht : lib.transpose s.jac with
      | none => simp [ht, Res.bind] at hr
      | some m =>
        simp only [ht] at hr
        cases hs : lib.analyze s.svd m s.marg with
        | ok x t => simp [hs, Res.bind] at hr
        | throw ex' t =>
          simp only [hs, Res.bind, Res.throw.injEq] at hr
          rw [← hr.2]; simp [ih]
        | ub => simp [hs, Res.bind] at hr
        | diverge => simp [hs, Res.bind] at hr

/-- a solver of one unknown: the Jacobian is a number, solving divides and throws for zero. -/
noncomputable def demoLib : Lib Unit ℝ ℝ ℝ ℝ where
  transpose j := some j
  solve _ m e _ := if m = 0 then .throw .external () else .ok (-e / m) ()
  analyze _ m _ := if m = 0 then .throw .external () else .ok () ()
  clear _ := ()
  build j _ _ := (j, 3 * j)
  init _ d := d

/-- non-vacuity of `C106_solve`, `C106_analyze`. -/
example : demoLib.transpose (2:ℝ) = some 2 ∧ demoLib.solve () 2 6 0 = .ok (-3) () ∧ demoLib.analyze () 2 0 = .ok () () := by
  refine ⟨rfl, ?_, ?_⟩
  · have h : demoLib.solve () 2 6 0 = (.ok (-6 / 2) () : Res Unit ℝ) := by simp [demoLib]
    have h2 : (-6 / 2 : ℝ) = -3 := by norm_num
    rw [h, h2]
  · simp [demoLib]

/-- **C106**, what is missing: every `solveSystem` that throws leaks a matrix; a history in which two calls did. -/
theorem C106_leak : ∃ s : Solver Unit ℝ ℝ, Hist demoLib ⟨(), 0, 0, 0, 0⟩ s 2 ∧ s.live = 2 := by
  have h0 : ∀ l, Call.run demoLib ⟨(), 0, 0, 0, l⟩ (.solve 0) = .res (.throw .external ⟨(), 0, 0, 0, l + 1⟩) := by
    intro l; simp [Call.run, solveSystem, demoLib, Res.bind]
  exact ⟨⟨(), 0, 0, 0, 2⟩, .thrown (.solve 0) .external (.thrown (.solve 0) .external .nil (h0 0)) (h0 1), rfl⟩

/-- **C106**, what is missing: `rhsJtJrhs` does not return the quantity it is named after; with `J = 2` and `e = 6` the right
hand side is `-12` and the value would be `576`. -/
theorem C106_rhsJtJrhs_wrong : ∃ (s : Solver Unit ℝ ℝ), s = buildSystem demoLib (⟨(), 2, 0, 0, 0⟩ : Solver Unit ℝ ℝ) 1 false ∧
    let rhs := -(s.jac * s.e)
    rhsJtJrhs s ≠ rhs * (s.jac * s.jac) * rhs := by
  refine ⟨_, rfl, ?_⟩
  norm_num [rhsJtJrhs, buildSystem, demoLib]

end Tsvd
end Verif
