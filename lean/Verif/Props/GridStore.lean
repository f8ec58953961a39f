import Verif.Lemmas.Grid3
import Mathlib.Tactic.NormNum

/-! Property C66: the grid as a store. -/

namespace Verif
namespace Grid
variable {T C : Type} [LinearOrder T]

/-- What a client can do to the cells: change one through the reference `getCell(idx)` returns, or reset all. -/
inductive GOp (C : Type) where
  | write (idx : List Int) (u : C → C)
  | reset

/-- effect of one call on the grid. -/
def GOp.run (dflt : C) (g : Grid T C) : GOp C → Res (Grid T C) Unit
  | .write idx u => g.modifyCell idx u
  | .reset => .ok () (g.reset dflt)

/-- a sequence of calls. -/
def runG (dflt : C) : List (GOp C) → Grid T C → Res (Grid T C) Unit
  | [], g => .ok () g
  | op :: ops, g => (op.run dflt g).bind fun _ g' => runG dflt ops g'

/-- Specification: the store is a function of the index. -/
def specStep (dflt : C) (f : List Int → C) : GOp C → List Int → C
  | .write idx u => fun j => if j = idx then u (f idx) else f j
  | .reset => fun _ => dflt

/-- the writes of a sequence go to indices in `[0, num)`. -/
def WritesValid (num : List Int) (ops : List (GOp C)) : Prop :=
  ∀ op ∈ ops, match op with | .write idx _ => Valid num idx | .reset => True

theorem val_toNat_inj {num a b : List Int} (ha : Valid num a) (hb : Valid num b)
    (h : (val a num).toNat = (val b num).toNat) : a = b := by
  have h1 := val_bd ha
  have h2 := val_bd hb
  exact val_inj ha hb (by omega)

/-- reading a cell of a well-formed grid. -/
theorem WF.getCell_eq {A : GridArith T} {zero : T} {g : Grid T C} (h : WF A zero g) (hA : A.Sound zero)
    (ht : g.tot ≤ 2147483648) {idx : List Int} (hv : Valid g.num idx) :
    ∃ hk : (val idx g.num).toNat < g.cells.length, g.getCell idx = .ok g.cells[(val idx g.num).toNat] () := by
  have hb := val_bd hv
  have htot := h.tot hA
  have hk : (val idx g.num).toNat < g.cells.length := by rw [h.cells_len]; omega
  refine ⟨hk, ?_⟩
  rw [getCell, (h.cellPos_valid hA ht hv).2]
  simp [hk]

theorem WF.withCells' {A : GridArith T} {zero : T} {g : Grid T C} (h : WF A zero g) {cs : List C}
    (hl : cs.length = g.tot) : WF A zero { g with cells := cs } :=
  ⟨h.lx, h.lr, h.rs_pos, h.mn_lt, h.rs_le, h.num_eq, h.num_int, h.lin_eq, h.lin_int, h.tot_eq, hl⟩

/-- **C66**: a grid with at most `2^31` cells is a store indexed by its valid indices: after the construction every cell
holds the default value, and after any sequence of writes to valid indices and resets (which all succeed) every cell holds
exactly what the sequence of writes to that index since the last reset makes of it; writing one cell never changes another,
and minimum, maximum, resolution and the number of cells never change. -/
theorem C66_grid_is_a_store (A : GridArith T) (zero : T) (hA : A.Sound zero) (dflt : C) (mn mx rs : List T)
    (g : Grid T C) (hg : ctor A zero dflt mn mx rs = .ok g ()) (ht : g.tot ≤ 2147483648) (ops : List (GOp C))
    (hops : WritesValid g.num ops) :
    ∃ g', runG dflt ops g = .ok () g' ∧ g'.mn = mn ∧ g'.mx = mx ∧ g'.rs = rs ∧ g'.num = g.num ∧
      g'.cells.length = g.cells.length ∧
      ∀ idx, Valid g.num idx → g'.getCell idx = .ok ((ops.foldl (specStep dflt) fun _ => dflt) idx) () := by
  obtain ⟨wf, rfl, rfl, rfl, hc⟩ := ctor_wf hg
  suffices H : ∀ (ops : List (GOp C)) (g0 : Grid T C) (f : List Int → C), g0 = { g with cells := g0.cells } →
      g0.cells.length = g.tot → WritesValid g.num ops →
      (∀ idx, Valid g.num idx → g0.getCell idx = .ok (f idx) ()) →
      ∃ g', runG dflt ops g0 = .ok () g' ∧ g'.mn = g.mn ∧ g'.mx = g.mx ∧ g'.rs = g.rs ∧ g'.num = g.num ∧
        g'.cells.length = g.tot ∧
        ∀ idx, Valid g.num idx → g'.getCell idx = .ok ((ops.foldl (specStep dflt) f) idx) () by
    obtain ⟨g', h1, h2, h3, h4, h5, h6, h7⟩ := H ops g (fun _ => dflt) rfl wf.cells_len hops (by
      intro idx hv
      obtain ⟨hk, e⟩ := wf.getCell_eq hA ht hv
      rw [e]
      congr 1
      have : ∀ k (h : k < g.cells.length), g.cells[k] = dflt := by rw [hc]; intro k h; simp
      exact this _ hk)
    exact ⟨g', h1, h2, h3, h4, h5, by rw [h6, wf.cells_len], h7⟩
  intro ops
  induction ops with
  | nil =>
    intro g0 f e hl _ hf
    exact ⟨g0, rfl, by rw [e], by rw [e], by rw [e], by rw [e], hl, hf⟩
  | cons op ops ih =>
    intro g0 f e hl hv hf
    have wf0 : WF A zero g0 := by rw [e]; exact wf.withCells' hl
    have hnum : g0.num = g.num := by rw [e]
    have htot : g0.tot = g.tot := by rw [e]
    have hv' : WritesValid g.num ops := fun o ho => hv o (List.mem_cons_of_mem _ ho)
    cases op with
    | reset =>
      have wf1 : WF A zero (g0.reset dflt) := wf0.withCells' (by simp [hl, htot])
      obtain ⟨g', h⟩ := ih (g0.reset dflt) (fun _ => dflt) (by
          show (_ : Grid T C) = _
          rw [reset, e]) (by simp [reset, hl]) hv' (by
        intro idx hi
        obtain ⟨hk, e1⟩ := wf1.getCell_eq hA (show g0.tot ≤ _ by omega) (show Valid g0.num idx by rw [hnum]; exact hi)
        rw [e1]; simp [reset])
      exact ⟨g', h⟩
    | write i u =>
      have hi : Valid g.num i := hv (.write i u) List.mem_cons_self
      have hi0 : Valid g0.num i := by rw [hnum]; exact hi
      have ep := (wf0.cellPos_valid hA (by omega) hi0).2
      have wf1 : WF A zero { g0 with cells := g0.cells.modify (val i g0.num).toNat u } :=
        wf0.withCells' (by rw [List.length_modify]; exact wf0.cells_len)
      obtain ⟨g', h⟩ := ih { g0 with cells := g0.cells.modify (val i g0.num).toNat u }
        (specStep dflt f (.write i u)) (by
          show (_ : Grid T C) = _
          rw [e]) (by simp [hl]) hv' (by
        intro idx hidx
        have hx : Valid g0.num idx := by rw [hnum]; exact hidx
        obtain ⟨hk, e1⟩ := wf1.getCell_eq hA (show g0.tot ≤ _ by omega) (show Valid g0.num idx from hx)
        obtain ⟨hk0, e0⟩ := wf0.getCell_eq hA (show g0.tot ≤ _ by omega) hx
        have ef := hf idx hidx
        rw [e0] at ef
        simp only [Res.ok.injEq, and_true] at ef
        rw [e1]
        simp only [List.getElem_modify, specStep]
        by_cases hii : idx = i
        · subst hii; simp [ef]
        · have hne : (val i g0.num).toNat ≠ (val idx g0.num).toNat := fun h => hii (val_toNat_inj hx hi0 h.symm)
          simp only [if_neg hii, if_neg hne, ef])
      refine ⟨g', ?_, h.2⟩
      show (modifyCell g0 i u).bind _ = _
      rw [modifyCell, ep]
      exact h.1

/-- non-vacuity of C66: a two by two grid, two writes, a reset and a write. -/
example : ∃ g : Grid Int Nat, ctor intArith 0 0 [0, 0] [1, 1] [1, 1] = .ok g () ∧ g.tot ≤ 2147483648 ∧
    WritesValid g.num [.write [0, 1] (· + 1), .write [1, 0] (· + 7), .reset, .write [1, 1] (· + 5)] ∧
    (([.write [0, 1] (· + 1), .write [1, 0] (· + 7), .reset, .write [1, 1] (· + 5)] : List (GOp Nat)).foldl
      (specStep 0) fun _ => 0) [1, 1] = 5 := by
  refine ⟨⟨[0, 0, 0, 0], [0, 0], [1, 1], [1, 1], [2, 2], 4, [2, 1]⟩, by decide, by decide, ?_, by decide⟩
  intro op hop
  simp only [List.mem_cons, List.not_mem_nil, or_false] at hop
  rcases hop with rfl | rfl | rfl | rfl <;> simp

end Grid
end Verif
