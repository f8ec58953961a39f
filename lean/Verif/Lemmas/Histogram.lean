import Verif.Lemmas.Grid3
import Mathlib.Algebra.BigOperators.Group.List.Basic
import Mathlib.Algebra.BigOperators.Group.Finset.Basic

/-! Lemmas about histograms. -/

namespace Verif
namespace Histogram
open Grid
variable {T : Type} [LinearOrder T]

/-- bin of a sample (`none`: out of range). -/
def binOf (A : GridArith T) (g : Hist T) (x : List T) : Option Nat :=
  match g.getIndex A x with
  | .ok idx () => some (val idx g.num).toNat
  | _ => none

/-- the same geometry with other bin contents. -/
def withCells (g : Hist T) (cs : List ℚ) : Hist T := { g with cells := cs }

/-- bin contents after one sample. -/
def bump (cs : List ℚ) : Option Nat → List ℚ
  | none => cs
  | some k => cs.modify k (· + 1)

theorem WF_withCells {A : GridArith T} {zero : T} {g : Hist T} (h : WF A zero g) {cs : List ℚ}
    (hl : cs.length = g.tot) : WF A zero (withCells g cs) :=
  ⟨h.lx, h.lr, h.rs_pos, h.mn_lt, h.rs_le, h.num_eq, h.num_int, h.lin_eq, h.lin_int, h.tot_eq, hl⟩

theorem length_bump (cs : List ℚ) (o : Option Nat) : (bump cs o).length = cs.length := by
  cases o <;> simp [bump]

theorem binOf_lt {A : GridArith T} {zero : T} (hA : A.Exact zero) {g : Hist T} (wf : WF A zero g) {x : List T}
    {k : Nat} (h : binOf A g x = some k) : k < g.tot := by
  unfold binOf at h
  split at h
  · rename_i idx e
    injection h with h
    subst h
    by_cases hb : InBox g.mn g.mx x
    · obtain ⟨i, e', hv⟩ := wf.getIndex_valid hA hb
      rw [e] at e'
      injection e' with e'
      subst e'
      have := val_bd hv; have := wf.tot hA.toSound
      omega
    · by_cases hl : x.length = g.mn.length
      · rw [wf.getIndex_out hl hb] at e; exact absurd e (by simp)
      · rw [getIndex, if_pos (by rw [wf.lx]; exact hl)] at e; exact absurd e (by simp)
  · exact absurd h (by simp)

theorem binOf_inBox {A : GridArith T} {zero : T} (hA : A.Exact zero) {g : Hist T} (wf : WF A zero g)
    {x : List T} (hl : x.length = g.mn.length) : (binOf A g x).isSome = true ↔ InBox g.mn g.mx x := by
  by_cases hb : InBox g.mn g.mx x
  · obtain ⟨i, e', hv⟩ := wf.getIndex_valid hA hb
    exact ⟨fun _ => hb, fun _ => by simp [binOf, e']⟩
  · simp [binOf, wf.getIndex_out hl hb, hb]

theorem addSample_eq {A : GridArith T} {zero : T} (hA : A.Exact zero) {g : Hist T} (wf : WF A zero g)
    (ht : g.tot ≤ 2147483648) {x : List T} (hl : x.length = g.mn.length) {cs : List ℚ} (hc : cs.length = g.tot) :
    addSample A (withCells g cs) x = .ok () (withCells g (bump cs (binOf A g x))) := by
  have wf' := WF_withCells wf hc
  have hlx : x.length = (withCells g cs).mx.length := by
    show x.length = g.mx.length
    rw [wf.lx, hl]
  rw [addSample, if_neg (by simpa using hlx)]
  by_cases hb : InBox g.mn g.mx x
  · obtain ⟨i, e', hv⟩ := wf'.getIndex_valid hA (show InBox (withCells g cs).mn (withCells g cs).mx x from hb)
    have hr : (withCells g cs).isInRange x = true := (isInRange_iff _ x hlx wf'.lx).2 hb
    have e2 : g.getIndex A x = .ok i () := e'
    rw [if_pos hr, e']
    simp only
    rw [modifyCell, (wf'.cellPos_valid hA.toSound ht hv).2]
    simp only [binOf, e2, bump]
    rfl
  · have hr : ¬ (withCells g cs).isInRange x = true := fun h => hb ((isInRange_iff _ x hlx wf'.lx).1 h)
    rw [if_neg hr]
    simp [binOf, wf.getIndex_out hl hb, bump]

theorem addSamples_eq {A : GridArith T} {zero : T} (hA : A.Exact zero) {g : Hist T} (wf : WF A zero g)
    (ht : g.tot ≤ 2147483648) : ∀ (xs : List (List T)), (∀ x ∈ xs, x.length = g.mn.length) →
    ∀ (cs : List ℚ), cs.length = g.tot →
    addSamples A xs (withCells g cs) =
      .ok () (withCells g ((xs.map (binOf A g)).foldl bump cs)) := by
  intro xs
  induction xs with
  | nil => intro _ cs _; rfl
  | cons x xs ih =>
    intro hl cs hc
    rw [addSamples, addSample_eq hA wf ht (hl x (by simp)) hc]
    simp only [Res.bind]
    rw [ih (fun y hy => hl y (by simp [hy])) _ (by rw [length_bump, hc])]
    rfl

theorem length_foldl_bump : ∀ (os : List (Option Nat)) (cs : List ℚ), (os.foldl bump cs).length = cs.length := by
  intro os
  induction os with
  | nil => intro cs; rfl
  | cons o os ih => intro cs; rw [List.foldl_cons, ih, length_bump]

theorem bump_get (cs : List ℚ) (o : Option Nat) (k : Nat) :
    (bump cs o)[k]? = (cs[k]?).map (fun c => c + if o = some k then 1 else 0) := by
  cases o with
  | none => simp [bump]
  | some j =>
    simp only [bump, List.getElem?_modify, Option.some.injEq]
    by_cases h : j = k
    · simp [h]
    · simp [h]

theorem foldl_bump_get : ∀ (os : List (Option Nat)) (cs : List ℚ) (k : Nat),
    (os.foldl bump cs)[k]? = (cs[k]?).map (fun c => c + (os.count (some k) : ℚ)) := by
  intro os
  induction os with
  | nil => intro cs k; simp
  | cons o os ih =>
    intro cs k
    rw [List.foldl_cons, ih, bump_get, Option.map_map]
    congr 1
    funext c
    simp only [Function.comp, List.count_cons, beq_iff_eq]
    split_ifs <;> push_cast <;> ring

theorem foldl_bump_perm {os os' : List (Option Nat)} (h : os.Perm os') (cs : List ℚ) :
    os.foldl bump cs = os'.foldl bump cs := by
  apply List.ext_getElem?
  intro k
  rw [foldl_bump_get, foldl_bump_get, h.count_eq]

theorem sumLoop_eq : ∀ (cs : List ℚ) (s : ℚ), sumLoop cs s = s + cs.sum := by
  intro cs
  induction cs with
  | nil => intro s; simp [sumLoop]
  | cons c cs ih => intro s; rw [sumLoop, ih, List.sum_cons]; ring

theorem getSum_eq (h : Hist T) : getSum h = h.cells.sum := by rw [getSum, sumLoop_eq]; ring

theorem sum_modify : ∀ (cs : List ℚ) (k : Nat), k < cs.length → (cs.modify k (· + 1)).sum = cs.sum + 1 := by
  intro cs
  induction cs with
  | nil => intro k h; simp at h
  | cons c cs ih =>
    intro k h
    cases k with
    | zero => simp; ring
    | succ k => simp [ih k (by simpa using h)]; ring

theorem sum_foldl_bump : ∀ (os : List (Option Nat)) (cs : List ℚ), (∀ k, some k ∈ os → k < cs.length) →
    (os.foldl bump cs).sum = cs.sum + (os.countP Option.isSome : ℚ) := by
  intro os
  induction os with
  | nil => intro cs _; simp
  | cons o os ih =>
    intro cs h
    rw [List.foldl_cons, ih _ (by intro k hk; rw [length_bump]; exact h k (by simp [hk])), List.countP_cons]
    cases o with
    | none => simp [bump]
    | some j =>
      rw [bump, sum_modify _ _ (h j (by simp))]; simp; ring

/-! ### one-dimensional loops -/

theorem visits_1d {C : Type} {g : Grid T C} {n : Int} (hn : g.num = [n]) (h1 : 1 ≤ n) :
    visits g = (List.range n.toNat).map fun (k : Nat) => [(k : Int)] := by
  have hne : g.num ≠ [] := by simp [hn]
  have hp : ∀ m ∈ g.num, 1 ≤ m := by simp [hn, h1]
  unfold visits
  have hprod : g.num.prod = n := by simp [hn]
  rw [hprod]
  apply List.map_congr_left
  intro k hk
  rw [List.mem_range] at hk
  obtain ⟨hv, hr⟩ := iterate_inc g hne hp k (by rw [hprod]; omega)
  generalize g.incrementIndex^[k] (List.replicate g.num.length 0) = idx at hv hr
  rw [hn] at hv hr
  cases hv with
  | cons hd tl => cases tl; simp [rk] at hr; simp [hr]

end Histogram
end Verif
