import Verif.Lemmas.Grid2

/-! Lookup of points. -/

namespace Verif
namespace Grid
variable {T C : Type} [LinearOrder T]

omit [LinearOrder T] in
theorem all_zipWith_iff {R : T → T → Prop} (f : T → T → Bool) (hf : ∀ x y, f x y = true ↔ R x y) :
    ∀ (a b : List T), a.length = b.length → ((List.zipWith f a b).all id = true ↔ List.Forall₂ R a b) := by
  intro a
  induction a with
  | nil => intro b hl; cases b <;> simp_all
  | cons x a ih =>
    intro b hl
    cases b with
    | nil => simp at hl
    | cons y b =>
      simp only [List.zipWith_cons_cons, List.all_cons, id, Bool.and_eq_true, List.forall₂_cons]
      rw [hf, ← ih b (by simpa using hl)]

theorem isInRange_iff (g : Grid T C) (p : List T) (h1 : p.length = g.mx.length)
    (h2 : g.mx.length = g.mn.length) : g.isInRange p = true ↔ InBox g.mn g.mx p := by
  unfold isInRange
  rw [Bool.and_eq_true, all_zipWith_iff (R := (· ≤ ·)) _ (by intro x y; simp) _ _ h1,
    all_zipWith_iff (R := fun a b => b ≤ a) _ (by intro x y; simp) _ _ (by omega), and_comm]
  constructor
  · rintro ⟨a, b⟩; exact ⟨a.flip, b⟩
  · rintro ⟨a, b⟩; exact ⟨List.Forall₂.flip a, b⟩

/-- relation between one coordinate and its index, along the dimensions. -/
inductive Dims (R : T → T → T → T → Int → Int → Prop) : List T → List T → List T → List T → List Int →
    List Int → Prop
  | nil : Dims R [] [] [] [] [] []
  | cons {p m M r n i ps mn mx rs ns is} : R p m M r n i → Dims R ps mn mx rs ns is →
    Dims R (p :: ps) (m :: mn) (M :: mx) (r :: rs) (n :: ns) (i :: is)

omit [LinearOrder T] in
theorem Dims.get {R : T → T → T → T → Int → Int → Prop} {ps mn mx rs : List T} {ns is : List Int}
    (h : Dims R ps mn mx rs ns is) : ∀ (d : Nat) (p m M r : T) (n i : Int), ps[d]? = some p →
    mn[d]? = some m → mx[d]? = some M → rs[d]? = some r → ns[d]? = some n → is[d]? = some i →
    R p m M r n i := by
  induction h with
  | nil => intro d p m M r n i h; simp at h
  | cons h1 h2 ih =>
    intro d
    cases d with
    | zero => intro p m M r n i; simp only [List.getElem?_cons_zero, Option.some.injEq]; rintro rfl rfl rfl rfl rfl rfl; exact h1
    | succ d => intro p m M r n i; simp only [List.getElem?_cons_succ]; exact ih d p m M r n i

theorem indexLoop_dims {A : GridArith T} {zero : T} : ∀ {mn mx rs p : List T}, List.Forall₂ (· < ·) mn mx →
    (∀ r ∈ rs, zero < r) → List.Forall₂ (· ≤ ·) rs (List.zipWith A.sub mx mn) → InBox mn mx p →
    Dims (fun p m M r n i => zero < r ∧ m < M ∧ r ≤ A.sub M m ∧ m ≤ p ∧ p ≤ M ∧ n = numCell A m M r ∧
      i = index1 A p m M r n)
      p mn mx rs (numCells A mn mx rs) (indexLoop A p mn mx rs (numCells A mn mx rs)) := by
  intro mn mx rs p h
  induction h generalizing rs p with
  | nil => intro _ h2 hb; cases h2; cases hb.1; exact .nil
  | @cons m M mn mx hd tl ih =>
    intro hr h2 hb
    cases h2 with
    | @cons r _ rs _ h3 h4 =>
      obtain ⟨b1, b2⟩ := hb
      cases b1 with
      | @cons _ x _ xs b11 b12 =>
        cases b2 with
        | cons b21 b22 =>
          exact .cons ⟨hr r (by simp), hd, h3, b11, b21, rfl, rfl⟩
            (ih (fun r hr' => hr r (by simp [hr'])) h4 ⟨b12, b22⟩)

omit [LinearOrder T] in
theorem Dims.valid {R : T → T → T → T → Int → Int → Prop} {ps mn mx rs : List T} {ns is : List Int}
    (h : Dims R ps mn mx rs ns is) (hR : ∀ p m M r n i, R p m M r n i → 0 ≤ i ∧ i < n) : Valid ns is := by
  induction h with
  | nil => exact .nil
  | cons h1 h2 ih => exact .cons (hR _ _ _ _ _ _ h1) ih

omit [LinearOrder T] in
theorem Dims.length_eq {R : T → T → T → T → Int → Int → Prop} {ps mn mx rs : List T} {ns is : List Int}
    (h : Dims R ps mn mx rs ns is) : ps.length = mn.length := by
  induction h with
  | nil => rfl
  | cons _ _ ih => simp [ih]

omit [LinearOrder T] in
theorem Dims.mono {R S : T → T → T → T → Int → Int → Prop} {ps mn mx rs : List T} {ns is : List Int}
    (h : Dims R ps mn mx rs ns is) (hR : ∀ p m M r n i, R p m M r n i → S p m M r n i) :
    Dims S ps mn mx rs ns is := by
  induction h with
  | nil => exact .nil
  | cons h1 h2 ih => exact .cons (hR _ _ _ _ _ _ h1) ih

omit [LinearOrder T] in
theorem Dims.le {R : T → T → T → T → Int → Int → Prop} {ps mn mx rs : List T} {ns is : List Int}
    (h : Dims R ps mn mx rs ns is) (hR : ∀ p m M r n i, R p m M r n i → 0 ≤ i ∧ i ≤ n) :
    List.Forall₂ (fun i n => 0 ≤ i ∧ i ≤ n) is ns := by
  induction h with
  | nil => exact .nil
  | cons h1 h2 ih => exact .cons (hR _ _ _ _ _ _ h1) ih

theorem WF.getIndex_dims {A : GridArith T} {zero : T} {g : Grid T C} (h : WF A zero g) {p : List T}
    (hb : InBox g.mn g.mx p) :
    ∃ idx, g.getIndex A p = .ok idx () ∧
      Dims (fun p m M r n i => zero < r ∧ m < M ∧ r ≤ A.sub M m ∧ m ≤ p ∧ p ≤ M ∧ n = numCell A m M r ∧
        i = index1 A p m M r n) p g.mn g.mx g.rs g.num idx := by
  have hl : p.length = g.mx.length := hb.2.length_eq
  refine ⟨indexLoop A p g.mn g.mx g.rs g.num, ?_, ?_⟩
  · rw [getIndex, if_neg (by simpa using hl), (isInRange_iff g p hl h.lx).2 hb]; rfl
  · rw [h.num_eq]; exact indexLoop_dims h.mn_lt h.rs_pos h.rs_le hb

theorem WF.getIndex_out {A : GridArith T} {zero : T} {g : Grid T C} (h : WF A zero g) {p : List T}
    (hl : p.length = g.mn.length) (hb : ¬ InBox g.mn g.mx p) : g.getIndex A p = .throw .outOfBound () := by
  have hl' : p.length = g.mx.length := by rw [h.lx, hl]
  have : g.isInRange p = false := by
    rw [← Bool.not_eq_true, isInRange_iff g p hl' h.lx]; exact hb
  rw [getIndex, if_neg (by simpa using hl'), this]; rfl

theorem index1_bd {A : GridArith T} {zero : T} (hA : A.Exact zero) {p m M r : T}
    (h1 : zero < r) (h2 : m < M) (h3 : r ≤ A.sub M m) (h4 : m ≤ p) (h5 : p ≤ M) :
    0 ≤ index1 A p m M r (numCell A m M r) ∧ index1 A p m M r (numCell A m M r) < numCell A m M r := by
  unfold index1
  split
  · have := hA.num_pos m M r h1 h2 h3
    unfold numCell; omega
  · have hlt : p < M := lt_of_le_of_ne h5 (by assumption)
    exact ⟨(hA.idx_bd p m M r h1 h4 hlt h3).1, hA.idx_lt p m M r h1 h4 hlt h3⟩

theorem index1_bd' {A : GridArith T} {zero : T} (hA : A.Sound zero) {p m M r : T}
    (h1 : zero < r) (h2 : m < M) (h3 : r ≤ A.sub M m) (h4 : m ≤ p) (h5 : p ≤ M) :
    0 ≤ index1 A p m M r (numCell A m M r) ∧ index1 A p m M r (numCell A m M r) ≤ numCell A m M r := by
  unfold index1
  split
  · have := hA.num_pos m M r h1 h2 h3
    unfold numCell; omega
  · have hlt : p < M := lt_of_le_of_ne h5 (by assumption)
    exact hA.idx_bd p m M r h1 h4 hlt h3

theorem WF.getIndex_valid {A : GridArith T} {zero : T} {g : Grid T C} (h : WF A zero g) (hA : A.Exact zero)
    {p : List T} (hb : InBox g.mn g.mx p) : ∃ idx, g.getIndex A p = .ok idx () ∧ Valid g.num idx := by
  obtain ⟨idx, e, hd⟩ := h.getIndex_dims hb
  refine ⟨idx, e, hd.valid ?_⟩
  rintro p m M r n i ⟨h1, h2, h3, h4, h5, rfl, rfl⟩
  exact index1_bd hA h1 h2 h3 h4 h5

/-! exact cell containment -/

theorem rat_contains {p m M r : ℚ} (h1 : 0 < r) (h2 : m < M) (h4 : m ≤ p) :
    let i := index1 ratArith p m M r (numCell ratArith m M r)
    m + i * r ≤ p ∧ (p < m + (i + 1) * r ∨ p = M ∧ p ≤ m + (i + 1) * r) := by
  simp only [index1, numCell, ratArith, flArith, id]
  split
  · rename_i e
    subst e
    have a := Int.ceil_lt_add_one ((p - m) / r)
    have b := Int.le_ceil ((p - m) / r)
    rw [div_le_iff₀ h1] at b
    have a' : ((⌈(p - m) / r⌉ : ℚ) - 1) * r < p - m := by
      rw [← lt_div_iff₀ h1]; linarith
    push_cast
    refine ⟨by linarith, .inr ⟨rfl, by linarith⟩⟩
  · have hb : 0 ≤ (p - m) / r := div_nonneg (by linarith) h1.le
    rw [truncQ_of_nonneg hb]
    have a := Int.floor_le ((p - m) / r)
    have b := Int.lt_floor_add_one ((p - m) / r)
    rw [le_div_iff₀ h1] at a
    rw [div_lt_iff₀ h1] at b
    exact ⟨by linarith, .inl (by linarith)⟩

theorem int_contains {p m M r : Int} (h1 : 0 < r) (h4 : m ≤ p) :
    let i := index1 intArith p m M r (numCell intArith m M r)
    m + i * r ≤ p ∧ p < m + (i + 1) * r := by
  have key : m + (p - m) / r * r ≤ p ∧ p < m + ((p - m) / r + 1) * r := by
    have a := Int.ediv_mul_le (p - m) (show r ≠ 0 by omega)
    have b := Int.lt_ediv_add_one_mul_self (p - m) h1
    constructor <;> linarith
  simp only [index1, numCell, intArith]
  split
  · rename_i e
    subst e
    rw [Int.tdiv_eq_ediv_of_nonneg (by omega)]
    simpa using key
  · rw [Int.tdiv_eq_ediv_of_nonneg (by omega)]
    exact key

/-! coordinates -/

theorem isValidIndex_iff (g : Grid T C) (idx : List Int) (h : idx.length = g.num.length) :
    g.isValidIndex idx = true ↔ List.Forall₂ (· < ·) idx g.num :=
  all_zipWith_iff (R := (· < ·)) _ (by intro x y; simp) _ _ h

theorem Valid.isValidIndex {g : Grid T C} {idx : List Int} (h : Valid g.num idx) :
    g.isValidIndex idx = true :=
  (isValidIndex_iff g idx h.length_eq).2 (h.imp fun _ _ h => h.2)

/-- relation between index, bounds and computed coordinate along the dimensions. -/
theorem coord_dims {A : GridArith T} {zero : T} {g : Grid T C} (h : WF A zero g) {idx : List Int}
    (hv : Valid g.num idx) :
    ∃ x, g.getCoordinates A idx = .ok x () ∧
      Dims (fun p m M r n i => zero < r ∧ m < M ∧ r ≤ A.sub M m ∧ n = numCell A m M r ∧ 0 ≤ i ∧ i < n ∧
        p = A.centre m i r) x g.mn g.mx g.rs g.num idx := by
  refine ⟨coordLoop A idx g.mn g.rs, ?_, ?_⟩
  · rw [getCoordinates, if_neg (by simpa using hv.length_eq), hv.isValidIndex]; rfl
  · have h1 := h.mn_lt; have h2 := h.rs_pos; have h3 := h.rs_le; have hn := h.num_eq
    generalize g.mn = mn at *; generalize g.mx = mx at *; generalize g.rs = rs at *
    generalize g.num = num at *
    subst hn
    clear h
    induction h1 generalizing rs idx with
    | nil => cases h3; cases hv; exact .nil
    | @cons m M mn mx hd tl ih =>
      cases h3 with
      | @cons r _ rs _ h31 h32 =>
        rw [numCells] at hv ⊢
        cases hv with
        | @cons i _ is _ v1 v2 =>
          exact .cons ⟨h2 r (by simp), hd, h31, rfl, v1.1, v1.2, rfl⟩
            (ih rs (fun r hr => h2 r (by simp [hr])) h32 v2)

omit [LinearOrder T] in
theorem Dims.index_eq {R S : T → T → T → T → Int → Int → Prop} {ps mn mx rs : List T} {ns is js : List Int}
    (h : Dims R ps mn mx rs ns is) (h' : Dims S ps mn mx rs ns js)
    (hRS : ∀ p m M r n i j, R p m M r n i → S p m M r n j → i = j) : is = js := by
  induction h generalizing js with
  | nil => cases h'; rfl
  | cons h1 h2 ih =>
    cases h' with
    | cons g1 g2 => rw [hRS _ _ _ _ _ _ _ h1 g1, ih g2]

theorem rat_index1_of_half {x m M r : ℚ} {i : Int} (hi0 : 0 ≤ i) (hi : i < numCell ratArith m M r)
    (hx : (x - m) / r = i + 1 / 2) : index1 ratArith x m M r (numCell ratArith m M r) = i := by
  simp only [index1, numCell, ratArith, flArith, id] at *
  by_cases e : x = M
  · rw [if_pos e]
    rw [← e, hx] at hi ⊢
    have : ⌈(i:ℚ) + 1 / 2⌉ = i + 1 := by
      rw [add_comm, Int.ceil_add_intCast]; norm_num; ring
    omega
  · rw [if_neg e]
    have hq : (0:ℚ) ≤ i := by exact_mod_cast hi0
    rw [hx, truncQ_of_nonneg (by linarith), add_comm, Int.floor_add_intCast]
    norm_num

theorem rat_centre_index {m M r : ℚ} {i : Int} (h1 : 0 < r) (hi0 : 0 ≤ i) (hi : i < numCell ratArith m M r) :
    index1 ratArith (ratArith.centre m i r) m M r (numCell ratArith m M r) = i := by
  refine rat_index1_of_half hi0 hi ?_
  simp only [ratArith, flArith, id]
  field_simp; ring

theorem rat_centre_bd {m M r : ℚ} {i : Int} (h1 : 0 < r) (hi0 : 0 ≤ i) (hi : i < numCell ratArith m M r) :
    m ≤ ratArith.centre m i r ∧ (M < ratArith.centre m i r → i = numCell ratArith m M r - 1) := by
  simp only [numCell, ratArith, flArith, id] at *
  have hq : (0:ℚ) ≤ i := by exact_mod_cast hi0
  refine ⟨by nlinarith, fun hlt => ?_⟩
  have h3 : (M - m) / r < i + 1 / 2 := by rw [div_lt_iff₀ h1]; linarith
  have : ⌈(M - m) / r⌉ ≤ i + 1 := Int.ceil_le.2 (by push_cast; linarith)
  omega

theorem int_centre {m r : Int} {i : Int} (hm : 0 ≤ m) (h1 : 0 < r) (hi0 : 0 ≤ i) :
    intArith.centre m i r = m + i * r + r / 2 := by
  simp only [intArith]
  have hmq : (0:ℚ) ≤ m := by exact_mod_cast hm
  have hiq : (0:ℚ) ≤ i := by exact_mod_cast hi0
  have hrq : (0:ℚ) < r := by exact_mod_cast h1
  rw [truncQ_of_nonneg (by positivity)]
  have e : (m:ℚ) + (i + 1 / 2) * r = ((m + i * r : Int) : ℚ) + (r : ℚ) / 2 := by push_cast; ring
  have e2 : ⌊(r : ℚ) / 2⌋ = r / 2 := by
    have h := Rat.floor_intCast_div_natCast r 2
    exact_mod_cast h
  rw [e, Int.floor_intCast_add, e2]

theorem int_centre_index {m M r : Int} {i : Int} (hm : 0 ≤ m) (h1 : 0 < r) (hi0 : 0 ≤ i)
    (hx : intArith.centre m i r ≤ M) :
    index1 intArith (intArith.centre m i r) m M r (numCell intArith m M r) = i := by
  have hir : 0 ≤ i * r := mul_nonneg hi0 h1.le
  have key : (m + i * r + r / 2 - m) / r = i := by
    have : m + i * r + r / 2 - m = r / 2 + i * r := by ring
    rw [this, Int.add_mul_ediv_right _ _ (by omega), Int.ediv_eq_zero_of_lt (by omega) (by omega)]
    ring
  rw [int_centre hm h1 hi0] at *
  simp only [index1, numCell, intArith]
  rw [Int.tdiv_eq_ediv_of_nonneg (by omega), Int.tdiv_eq_ediv_of_nonneg (by omega)]
  split
  · rename_i e
    rw [← e, key]; ring
  · exact key

end Grid
end Verif
