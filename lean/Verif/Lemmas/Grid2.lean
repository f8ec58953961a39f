import Verif.Lemmas.Grid
import Verif.Spec.Grid
import Mathlib.Data.List.Forall2
import Mathlib.Logic.Function.Iterate

/-! Mixed radix addressing, index iteration and construction of grids. -/

namespace Verif
namespace Grid

/-- value of an index in the addressing order (last dimension fastest). -/
def val : List Int → List Int → Int
  | i :: is, _ :: ns => i * ns.prod + val is ns
  | _, _ => 0

/-- rank of an index in the iteration order (first dimension fastest). -/
def rk : List Int → List Int → Int
  | i :: is, n :: ns => i + n * rk is ns
  | _, _ => 0

theorem prod_pos {ns : List Int} (h : ∀ n ∈ ns, 1 ≤ n) : 1 ≤ ns.prod := by
  induction ns with
  | nil => simp
  | cons n ns ih =>
    have h1 := h n (by simp)
    have h2 := ih fun m hm => h m (by simp [hm])
    rw [List.prod_cons]
    nlinarith

theorem val_bd {idx num : List Int} (h : Valid num idx) : 0 ≤ val idx num ∧ val idx num < num.prod := by
  induction h with
  | nil => simp [val]
  | @cons i n is ns hd tl ih =>
    rw [val, List.prod_cons]
    constructor
    · have := mul_nonneg hd.1 (le_trans ih.1 ih.2.le); omega
    · have : (i + 1) * ns.prod ≤ n * ns.prod :=
        mul_le_mul_of_nonneg_right (by omega) (le_trans ih.1 ih.2.le)
      linarith [ih.2]

theorem val_inj {num a b : List Int} (ha : Valid num a) (hb : Valid num b) (h : val a num = val b num) :
    a = b := by
  induction ha generalizing b with
  | nil => cases hb; rfl
  | @cons i n is ns hd tl ih =>
    cases hb with
    | @cons j _ js _ hd' tl' =>
      rw [val, val] at h
      have b1 := val_bd tl
      have b2 := val_bd tl'
      have hij : i = j := by
        rcases lt_trichotomy i j with hl | hl | hl
        · exfalso
          have : (i + 1) * ns.prod ≤ j * ns.prod := mul_le_mul_of_nonneg_right (by omega) (by omega)
          linarith
        · exact hl
        · exfalso
          have : (j + 1) * ns.prod ≤ i * ns.prod := mul_le_mul_of_nonneg_right (by omega) (by omega)
          linarith
      subst hij
      rw [ih tl' (by linarith)]

theorem val_surj {num : List Int} (hp : ∀ n ∈ num, 1 ≤ n) {k : Int} (h0 : 0 ≤ k) (hk : k < num.prod) :
    ∃ idx, Valid num idx ∧ val idx num = k := by
  induction num generalizing k with
  | nil => exact ⟨[], .nil, by simp at hk; simp [val]; omega⟩
  | cons n ns ih =>
    have hpp := prod_pos (ns := ns) fun m hm => hp m (by simp [hm])
    obtain ⟨js, hj, hv⟩ := ih (fun m hm => hp m (by simp [hm])) (k := k % ns.prod)
      (Int.emod_nonneg _ (by omega)) (Int.emod_lt_of_pos _ (by omega))
    refine ⟨k / ns.prod :: js, .cons ⟨Int.ediv_nonneg h0 (by omega), ?_⟩ hj, ?_⟩
    · rw [List.prod_cons] at hk
      exact Int.ediv_lt_of_lt_mul (by omega) hk
    · rw [val, hv]; have := Int.mul_ediv_add_emod k ns.prod; linarith [mul_comm ns.prod (k / ns.prod)]

/-! ### rank -/

theorem rk_bd {idx num : List Int} (h : Valid num idx) : 0 ≤ rk idx num ∧ rk idx num < num.prod := by
  induction h with
  | nil => simp [rk]
  | @cons i n is ns hd tl ih =>
    rw [rk, List.prod_cons]
    constructor
    · have := mul_nonneg (show 0 ≤ n by omega) ih.1; omega
    · have : n * (rk is ns + 1) ≤ n * ns.prod := mul_le_mul_of_nonneg_left (by omega) (by omega)
      linarith [hd.2]

theorem rk_inj {num a b : List Int} (ha : Valid num a) (hb : Valid num b) (h : rk a num = rk b num) :
    a = b := by
  induction ha generalizing b with
  | nil => cases hb; rfl
  | @cons i n is ns hd tl ih =>
    cases hb with
    | @cons j _ js _ hd' tl' =>
      rw [rk, rk] at h
      have hij : i = j := by
        have e1 : (i + n * rk is ns) % n = i := by
          rw [Int.add_mul_emod_self_left]; exact Int.emod_eq_of_lt hd.1 hd.2
        have e2 : (j + n * rk js ns) % n = j := by
          rw [Int.add_mul_emod_self_left]; exact Int.emod_eq_of_lt hd'.1 hd'.2
        rw [← e1, h, e2]
      subst hij
      have hn : n ≠ 0 := by omega
      have h2 : n * rk is ns = n * rk js ns := by linarith
      rw [ih tl' (mul_left_cancel₀ hn h2)]

theorem incLoop_spec {idx num : List Int} (h : Valid num idx) (hne : num ≠ []) :
    (∃ idx', incLoop idx num = some idx' ∧ Valid num idx' ∧ rk idx' num = rk idx num + 1) ∨
      (incLoop idx num = none ∧ rk idx num + 1 = num.prod) := by
  induction h with
  | nil => exact absurd rfl hne
  | @cons i n is ns hd tl ih =>
    unfold incLoop
    by_cases h1 : i + 1 < n
    · left
      exact ⟨(i + 1) :: is, by rw [if_pos h1], .cons ⟨by omega, h1⟩ tl, by simp only [rk]; ring⟩
    · rw [if_neg h1]
      have hi : i + 1 = n := by omega
      by_cases h2 : is = []
      · right
        subst h2
        cases tl
        refine ⟨by simp, ?_⟩
        simp [rk]; omega
      · rw [if_neg h2]
        have hns : ns ≠ [] := by rintro rfl; cases tl; exact h2 rfl
        rcases ih hns with ⟨js, e, hv, hr⟩ | ⟨e, hr⟩
        · left
          refine ⟨0 :: js, by rw [e]; rfl, .cons ⟨le_refl _, by omega⟩ hv, ?_⟩
          simp only [rk]; rw [hr, ← hi]; ring
        · right
          refine ⟨by rw [e]; rfl, ?_⟩
          simp only [rk, List.prod_cons]; rw [← hr, ← hi]; ring

theorem valid_zero {num : List Int} (hp : ∀ n ∈ num, 1 ≤ n) : Valid num (List.replicate num.length 0) := by
  induction num with
  | nil => exact .nil
  | cons n ns ih =>
    exact .cons ⟨le_refl _, by have := hp n (by simp); omega⟩ (ih fun m hm => hp m (by simp [hm]))

theorem rk_zero (num : List Int) : rk (List.replicate num.length 0) num = 0 := by
  induction num with
  | nil => rfl
  | cons n ns ih => simp only [List.length_cons, List.replicate_succ, rk, ih]; simp

variable {T C : Type} [LinearOrder T]

theorem iterate_inc (g : Grid T C) (hne : g.num ≠ []) (hp : ∀ n ∈ g.num, 1 ≤ n) :
    ∀ k : Nat, (k : Int) < g.num.prod →
      Valid g.num (g.incrementIndex^[k] (List.replicate g.num.length 0)) ∧
      rk (g.incrementIndex^[k] (List.replicate g.num.length 0)) g.num = k := by
  intro k
  induction k with
  | zero => intro _; exact ⟨valid_zero hp, by simp [rk_zero]⟩
  | succ k ih =>
    intro hk
    obtain ⟨hv, hr⟩ := ih (by push_cast at hk; omega)
    rw [Function.iterate_succ_apply']
    rcases incLoop_spec hv hne with ⟨idx', e, hv', hr'⟩ | ⟨e, hr'⟩
    · rw [incrementIndex, e]
      exact ⟨hv', by simp only [Option.getD_some]; rw [hr', hr]; push_cast; ring⟩
    · exfalso; push_cast at hk; omega

theorem iterate_inc_end (g : Grid T C) (hne : g.num ≠ []) (hp : ∀ n ∈ g.num, 1 ≤ n) :
    g.incrementIndex^[g.num.prod.toNat] (List.replicate g.num.length 0) = g.num := by
  have hpp := prod_pos hp
  obtain ⟨m, hm⟩ : ∃ m : Nat, g.num.prod = m + 1 := ⟨(g.num.prod - 1).toNat, by omega⟩
  have : g.num.prod.toNat = m + 1 := by omega
  rw [this, Function.iterate_succ_apply']
  obtain ⟨hv, hr⟩ := iterate_inc g hne hp m (by omega)
  rcases incLoop_spec hv hne with ⟨idx', e, hv', hr'⟩ | ⟨e, hr'⟩
  · exfalso; have := (rk_bd hv').2; omega
  · rw [incrementIndex, e]; rfl

theorem valid_ne_num {num idx : List Int} (hne : num ≠ []) (h : Valid num idx) : idx ≠ num := by
  rintro rfl
  cases h with
  | nil => exact hne rfl
  | cons hd _ => omega

/-- all valid indices in iteration order. -/
def visits (g : Grid T C) : List (List Int) :=
  (List.range g.num.prod.toNat).map fun k => g.incrementIndex^[k] (List.replicate g.num.length 0)

theorem mem_visits {g : Grid T C} (hne : g.num ≠ []) (hp : ∀ n ∈ g.num, 1 ≤ n) {idx : List Int} :
    idx ∈ visits g ↔ Valid g.num idx := by
  have hpp := prod_pos hp
  constructor
  · intro h
    simp only [visits, List.mem_map, List.mem_range] at h
    obtain ⟨k, hk, rfl⟩ := h
    exact (iterate_inc g hne hp k (by omega)).1
  · intro h
    have hb := rk_bd h
    simp only [visits, List.mem_map, List.mem_range]
    refine ⟨(rk idx g.num).toNat, by omega, ?_⟩
    obtain ⟨hv, hr⟩ := iterate_inc g hne hp (rk idx g.num).toNat (by omega)
    exact rk_inj hv h (by rw [hr]; omega)

theorem nodup_visits {g : Grid T C} (hne : g.num ≠ []) (hp : ∀ n ∈ g.num, 1 ≤ n) : (visits g).Nodup := by
  have hpp := prod_pos hp
  refine List.Nodup.map_on ?_ List.nodup_range
  intro a ha b hb e
  rw [List.mem_range] at ha hb
  have h1 := (iterate_inc g hne hp a (by omega)).2
  have h2 := (iterate_inc g hne hp b (by omega)).2
  rw [e, h2] at h1
  omega

/-! ### the loop over all indices -/

theorem forIndices_go {S : Type} (g : Grid T C) (hne : g.num ≠ []) (hp : ∀ n ∈ g.num, 1 ≤ n)
    (body : List Int → S → Res Unit S) (f : S → List Int → S)
    (hb : ∀ idx s, Valid g.num idx → body idx s = .ok (f s idx) ()) :
    ∀ (m k : Nat) (s : S), k + m = g.num.prod.toNat → ∀ fuel, m + 1 ≤ fuel →
      g.forIndices body fuel (g.incrementIndex^[k] (List.replicate g.num.length 0)) s =
        .ok (((List.range' k m).map fun j =>
          g.incrementIndex^[j] (List.replicate g.num.length 0)).foldl f s) () := by
  intro m
  induction m with
  | zero =>
    intro k s hk fuel hf
    obtain ⟨fuel, rfl⟩ : ∃ x, fuel = x + 1 := ⟨fuel - 1, by omega⟩
    have hk' : k = g.num.prod.toNat := by omega
    subst hk'
    rw [forIndices, iterate_inc_end g hne hp]; simp
  | succ m ih =>
    intro k s hk fuel hf
    obtain ⟨fuel, rfl⟩ : ∃ x, fuel = x + 1 := ⟨fuel - 1, by omega⟩
    have hv := (iterate_inc g hne hp k (by omega)).1
    rw [forIndices, if_neg (valid_ne_num hne hv), hb _ _ hv]
    simp only
    rw [← Function.iterate_succ_apply' g.incrementIndex, ih (k + 1) _ (by omega) fuel (by omega)]
    simp [List.range'_succ]

theorem forIndices_eq {S : Type} (g : Grid T C) (hne : g.num ≠ []) (hp : ∀ n ∈ g.num, 1 ≤ n)
    (body : List Int → S → Res Unit S) (f : S → List Int → S)
    (hb : ∀ idx s, Valid g.num idx → body idx s = .ok (f s idx) ()) (s : S) (fuel : Nat)
    (hf : g.num.prod.toNat + 1 ≤ fuel) :
    g.forIndices body fuel (List.replicate g.num.length 0) s = .ok ((visits g).foldl f s) () := by
  have := forIndices_go g hne hp body f hb g.num.prod.toNat 0 s (by omega) fuel hf
  simp only [Function.iterate_zero, id] at this
  rw [this, visits, List.range_eq_range']

/-! ### well-formed grids -/

theorem totLoop_eq : ∀ (ns : List Int) (acc : Nat), (∀ n ∈ ns, 1 ≤ n) → (acc : Int) * ns.prod < 18446744073709551616 →
    1 ≤ acc → (totLoop ns acc : Int) = acc * ns.prod := by
  intro ns
  induction ns with
  | nil => intro acc _ _ _; simp [totLoop]
  | cons n ns ih =>
    intro acc hp hb ha
    have h1 := hp n (by simp)
    have h2 := prod_pos (ns := ns) fun m hm => hp m (by simp [hm])
    rw [List.prod_cons, ← mul_assoc] at hb
    have hacc : (acc : Int) * n * 1 ≤ acc * n * ns.prod :=
      mul_le_mul_of_nonneg_left h2 (mul_nonneg (by omega) (by omega))
    have hn : n ≤ acc * n := le_mul_of_one_le_left (by omega) (by omega)
    have e1 : n % 18446744073709551616 = n := Int.emod_eq_of_lt (by omega) (by omega)
    have e2 : ((acc * (n % 18446744073709551616).toNat % 18446744073709551616 : Nat) : Int) = acc * n := by
      rw [e1]; push_cast; rw [Int.toNat_of_nonneg (by omega)]
      exact Int.emod_eq_of_lt (by positivity) (by omega)
    rw [totLoop, ih _ (fun m hm => hp m (by simp [hm])) (by rw [e2]; exact hb) (by
      have : (1:Int) ≤ ((acc * (n % 18446744073709551616).toNat % 18446744073709551616 : Nat) : Int) := by
        rw [e2]; nlinarith
      omega), e2, List.prod_cons]
    ring

theorem prodFrom_some : ∀ {ns : List Int} {acc p : Int}, prodFrom ns acc = some p → p = acc * ns.prod ∧
    (fitsInt acc = true → fitsInt p = true) := by
  intro ns
  induction ns with
  | nil => intro acc p h; simp [prodFrom] at h; simp [h]
  | cons n ns ih =>
    intro acc p h
    rw [prodFrom] at h
    split at h
    · rename_i hf
      obtain ⟨h1, h2⟩ := ih h
      exact ⟨by rw [h1, List.prod_cons]; ring, fun _ => h2 hf⟩
    · exact absurd h (by simp)

/-- suffix products. -/
def sufProd : List Int → List Int
  | [] => []
  | _ :: ns => ns.prod :: sufProd ns

theorem linProd_some : ∀ {ns l : List Int}, linProd ns = some l →
    l = sufProd ns ∧ ∀ n ns', ns = n :: ns' → ns'.prod ≤ 2147483647 := by
  intro ns
  induction ns with
  | nil => intro l h; simp [linProd] at h; subst h; exact ⟨rfl, by intro _ _ e; cases e⟩
  | cons n ns ih =>
    intro l h
    rw [linProd] at h
    split at h
    · rename_i p l' hp hl
      obtain ⟨h1, h2⟩ := prodFrom_some hp
      simp only [Option.some.injEq] at h
      subst h
      refine ⟨by rw [sufProd, (ih hl).1, h1]; simp, ?_⟩
      intro a b e
      injection e with e1 e2
      subst e2
      have := h2 (by decide)
      simp only [fitsInt, Bool.and_eq_true, decide_eq_true_eq] at this
      rw [h1] at this
      omega
    · exact absurd h (by simp)

theorem length_sufProd (ns : List Int) : (sufProd ns).length = ns.length := by
  induction ns with
  | nil => rfl
  | cons n ns ih => simp [sufProd, ih]

/-- What the constructor establishes. -/
structure WF (A : GridArith T) (zero : T) (g : Grid T C) : Prop where
  lx : g.mx.length = g.mn.length
  lr : g.rs.length = g.mn.length
  rs_pos : ∀ r ∈ g.rs, zero < r
  mn_lt : List.Forall₂ (· < ·) g.mn g.mx
  rs_le : List.Forall₂ (· ≤ ·) g.rs (List.zipWith A.sub g.mx g.mn)
  num_eq : g.num = numCells A g.mn g.mx g.rs
  num_int : ∀ n ∈ g.num, n ≤ 2147483647
  lin_eq : g.lin = sufProd g.num
  lin_int : ∀ n ns, g.num = n :: ns → ns.prod ≤ 2147483647
  tot_eq : g.tot = totLoop g.num 1
  cells_len : g.cells.length = g.tot

omit [LinearOrder T] in
theorem forall2_of_zipWith_not {R : T → T → Prop} (f : T → T → Bool) : ∀ (a b : List T), a.length = b.length →
    (∀ x y, f x y = false → R x y) → (List.zipWith f a b).any id = false → List.Forall₂ R a b := by
  intro a
  induction a with
  | nil => intro b hl _ _; cases b <;> simp_all
  | cons x a ih =>
    intro b hl hR h
    cases b with
    | nil => simp at hl
    | cons y b =>
      simp only [List.zipWith_cons_cons, List.any_cons, id, Bool.or_eq_false_iff] at h
      exact .cons (hR _ _ h.1) (ih b (by simpa using hl) hR h.2)

theorem ctor_wf {A : GridArith T} {zero : T} {dflt : C} {mn mx rs : List T} {g : Grid T C}
    (h : ctor A zero dflt mn mx rs = .ok g ()) :
    WF A zero g ∧ g.mn = mn ∧ g.mx = mx ∧ g.rs = rs ∧ g.cells = List.replicate g.tot dflt := by
  unfold ctor at h
  split at h; · exact absurd h (by simp)
  rename_i h1
  split at h; · exact absurd h (by simp)
  rename_i h2
  split at h; · exact absurd h (by simp)
  rename_i h3
  split at h; · exact absurd h (by simp)
  rename_i h4
  split at h; · exact absurd h (by simp)
  rename_i h5
  simp only at h
  split at h
  · rename_i h6
    split at h
    · exact absurd h (by simp)
    · rename_i lin hlin
      injection h with h
      subst h
      obtain ⟨hl1, hl2⟩ := linProd_some hlin
      refine ⟨⟨by simpa using (not_not.1 h2).symm, by simpa using h4, ?_, ?_, ?_, rfl, ?_, hl1, hl2, rfl,
        by simp⟩, rfl, rfl, rfl, rfl⟩
      · intro r hr
        simp only [List.any_eq_true, not_exists, not_and, decide_eq_true_eq] at h1
        exact lt_of_not_ge (h1 r hr)
      · exact forall2_of_zipWith_not _ _ _ (not_not.1 h2) (by intro x y hxy; exact not_le.1 (of_decide_eq_false hxy)) (by simpa using h3)
      · refine forall2_of_zipWith_not _ _ _ ?_ (by intro x y hxy; exact not_lt.1 (of_decide_eq_false hxy)) (by simpa using h5)
        have := not_not.1 h2; have := not_not.1 h4
        simp; omega
      · intro n hn
        have := List.all_eq_true.1 h6 n hn
        simp only [fitsInt, Bool.and_eq_true, decide_eq_true_eq] at this
        omega
  · exact absurd h (by simp)

section
variable {A : GridArith T} {zero : T}

theorem numCells_pos (hA : A.Sound zero) : ∀ {mn mx rs : List T}, List.Forall₂ (· < ·) mn mx →
    (∀ r ∈ rs, zero < r) → List.Forall₂ (· ≤ ·) rs (List.zipWith A.sub mx mn) →
    (∀ n ∈ numCells A mn mx rs, 1 ≤ n) ∧ (numCells A mn mx rs).length = mn.length := by
  intro mn mx rs h
  induction h generalizing rs with
  | nil => intro _ h2; cases h2; simp [numCells]
  | @cons m M mn mx hd tl ih =>
    intro hr h2
    cases h2 with
    | @cons r _ rs _ h3 h4 =>
      obtain ⟨i1, i2⟩ := ih (fun r hr' => hr r (by simp [hr'])) h4
      rw [numCells]
      constructor
      · intro n hn
        rcases List.mem_cons.1 hn with rfl | hn
        · exact hA.num_pos _ _ _ (hr r (by simp)) hd h3
        · exact i1 n hn
      · simp [i2]

theorem WF.pos {g : Grid T C} (h : WF A zero g) (hA : A.Sound zero) : ∀ n ∈ g.num, 1 ≤ n := by
  rw [h.num_eq]; exact (numCells_pos hA h.mn_lt h.rs_pos h.rs_le).1

theorem WF.len {g : Grid T C} (h : WF A zero g) (hA : A.Sound zero) : g.num.length = g.mn.length := by
  rw [h.num_eq]; exact (numCells_pos hA h.mn_lt h.rs_pos h.rs_le).2

theorem WF.prod_lt {g : Grid T C} (h : WF A zero g) (hA : A.Sound zero) :
    g.num.prod < 18446744073709551616 := by
  have hp := h.pos hA
  rcases hn : g.num with _ | ⟨n, ns⟩
  · simp
  · have h1 := h.lin_int n ns hn
    have h2 := h.num_int n (by simp [hn])
    have h3 := hp n (by simp [hn])
    have h4 := prod_pos (ns := ns) fun m hm => hp m (by simp [hn, hm])
    rw [List.prod_cons]
    nlinarith

theorem WF.tot {g : Grid T C} (h : WF A zero g) (hA : A.Sound zero) : (g.tot : Int) = g.num.prod := by
  rw [h.tot_eq, totLoop_eq g.num 1 (h.pos hA) (by simpa using h.prod_lt hA) (by omega)]; simp

end

/-! ### linear index -/

theorem linLoop_eq : ∀ {num idx : List Int} (acc : Nat), Valid num idx → num.prod ≤ 2147483648 →
    (acc : Int) + val idx num < 18446744073709551616 →
    linLoop (sufProd num) idx acc = some (acc + (val idx num).toNat) := by
  intro num idx acc h
  induction h generalizing acc with
  | nil => intro _ _; simp [sufProd, linLoop, val]
  | @cons i n is ns hd tl ih =>
    intro hb hacc
    have b := val_bd tl
    have bb := val_bd (num := n :: ns) (idx := i :: is) (.cons hd tl)
    rw [val] at hacc bb ⊢
    have hm : 0 ≤ i * ns.prod := mul_nonneg hd.1 (by omega)
    have hn : ns.prod ≤ n * ns.prod := le_mul_of_one_le_left (by omega) (by omega)
    rw [List.prod_cons] at hb bb
    have hf : fitsInt (ns.prod * i) = true := by
      rw [mul_comm]; simp only [fitsInt, Bool.and_eq_true, decide_eq_true_eq]; omega
    rw [sufProd, linLoop, if_pos hf]
    have e1 : ns.prod * i % 18446744073709551616 = i * ns.prod := by
      rw [mul_comm]; exact Int.emod_eq_of_lt hm (by omega)
    have e2 : (acc + (ns.prod * i % 18446744073709551616).toNat) % 18446744073709551616
        = acc + (i * ns.prod).toNat := by
      rw [e1]; omega
    rw [e2, ih _ (by omega) (by omega)]
    congr 1
    omega

theorem WF.cellPos_valid {A : GridArith T} {zero : T} {g : Grid T C} (h : WF A zero g) (hA : A.Sound zero)
    (ht : g.tot ≤ 2147483648) {idx : List Int} (hv : Valid g.num idx) :
    g.computeLinearIndex idx = some (val idx g.num).toNat ∧
      g.cellPos idx = .ok (val idx g.num).toNat () := by
  have hb := val_bd hv
  have htot := h.tot hA
  have e : g.computeLinearIndex idx = some (val idx g.num).toNat := by
    rw [computeLinearIndex, h.lin_eq, length_sufProd, if_pos hv.length_eq,
      linLoop_eq 0 hv (by omega) (by push_cast; omega)]
    simp
  refine ⟨e, ?_⟩
  have hval : g.isValidIndex idx = true := by
    unfold isValidIndex
    clear hb e htot
    generalize g.num = num at hv
    induction hv with
    | nil => simp
    | cons hd tl ih => simp [hd.2]; simpa using ih
  rw [cellPos, if_neg (by simpa using hv.length_eq), hval, e]
  have : (val idx g.num).toNat < g.cells.length := by rw [h.cells_len]; omega
  simp [this]

end Grid
end Verif
