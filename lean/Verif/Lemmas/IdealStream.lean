import Verif.Spec.Sampling
import Mathlib.Probability.ConditionalProbability
import Mathlib.MeasureTheory.Measure.Prod
import Mathlib.MeasureTheory.Constructions.Pi

/-! # Streams of independent uniform draws: head and tail, rejection loops, sequencing -/

namespace Verif
namespace Ideal

open MeasureTheory Sampling ProbabilityTheory

theorem measurable_rest (n : ℕ) : Measurable (rest n) := by
  unfold rest; fun_prop

theorem measurable_restN {N : Stream → ℕ} (hN : Measurable N) : Measurable fun u => rest (N u) u := by
  have : Measurable (fun p : ℕ × Stream => rest p.1 p.2) :=
    measurable_from_prod_countable_right fun n => measurable_rest n
  exact this.comp (hN.prodMk measurable_id)

theorem rest_rest (a b : ℕ) (u : Stream) : rest b (rest a u) = rest (a + b) u := by
  funext i; simp [rest, Nat.add_assoc]

@[simp] theorem rest_zero (u : Stream) : rest 0 u = u := by
  funext i; simp [rest]

/-- prepend a draw. -/
def consS (p : ℝ × Stream) : Stream := fun i => Nat.casesOn i p.1 p.2

theorem measurable_consS : Measurable consS := by
  refine measurable_pi_lambda _ fun i => ?_
  cases i with
  | zero => exact measurable_fst
  | succ i => exact (measurable_pi_apply i).comp measurable_snd

theorem map_consS : (unif.prod Draws).map consS = Draws := by
  refine Measure.eq_infinitePi _ fun s t ht => ?_
  have hm : ∀ i, MeasurableSet (t i) := ht
  rw [Measure.map_apply measurable_consS (MeasurableSet.pi s.countable_toSet fun i _ => ht i)]
  let t' : ℕ → Set ℝ := fun i => if i ∈ s then t i else Set.univ
  have ht' : ∀ i, MeasurableSet (t' i) := fun i => by
    simp only [t']; split
    · exact ht i
    · exact MeasurableSet.univ
  let s' : Finset ℕ := (s.preimage Nat.succ (Nat.succ_injective.injOn))
  have e : consS ⁻¹' (Set.pi s t) = t' 0 ×ˢ Set.pi s' (fun i => t (i + 1)) := by
    ext ⟨x, v⟩
    simp only [Set.mem_preimage, Set.mem_pi, Finset.mem_coe, Set.mem_prod, t', s', Finset.mem_preimage]
    constructor
    · intro h
      refine ⟨?_, fun i hi => h (i + 1) hi⟩
      split
      · rename_i h0; exact h 0 h0
      · trivial
    · rintro ⟨h0, h1⟩ i hi
      cases i with
      | zero => rw [if_pos hi] at h0; exact h0
      | succ i => exact h1 i hi
  rw [e, Measure.prod_prod, Draws, Measure.infinitePi_pi _ (fun i _ => ht _)]
  by_cases h0 : 0 ∈ s
  · have : s = insert 0 (s'.image Nat.succ) := by
      ext i; simp only [Finset.mem_insert, Finset.mem_image, s', Finset.mem_preimage]
      constructor
      · intro hi; cases i with
        | zero => exact Or.inl rfl
        | succ i => exact Or.inr ⟨i, hi, rfl⟩
      · rintro (rfl | ⟨j, hj, rfl⟩)
        · exact h0
        · exact hj
    conv_rhs => rw [this]
    rw [Finset.prod_insert (by simp), Finset.prod_image (by simp)]
    simp [t', h0]
  · have : s = s'.image Nat.succ := by
      ext i; simp only [Finset.mem_image, s', Finset.mem_preimage]
      constructor
      · intro hi; cases i with
        | zero => exact absurd hi h0
        | succ i => exact ⟨i, hi, rfl⟩
      · rintro ⟨j, hj, rfl⟩
        exact hj
    conv_rhs => rw [this]
    rw [Finset.prod_image (by simp)]
    simp [t', h0]

/-- the first draw and the others. -/
theorem draws_head : Draws.map (fun u => (u 0, rest 1 u)) = unif.prod Draws := by
  have hm : Measurable (fun u : Stream => (u 0, rest 1 u)) := (measurable_pi_apply 0).prodMk (measurable_rest 1)
  conv_lhs => rw [← map_consS]
  rw [Measure.map_map hm measurable_consS]
  convert Measure.map_id using 2
  funext p
  refine Prod.ext rfl ?_
  funext i; simp [rest, consS, Nat.add_comm 1 i]

/-- the first two draws and the others. -/
theorem draws_head2 : Draws.map (fun u => ((u 0, u 1), rest 2 u)) = (unif.prod unif).prod Draws := by
  have h1 : Draws.map (fun u => (u 0, (u 1, rest 2 u))) = unif.prod (unif.prod Draws) := by
    have : (fun u : Stream => (u 0, (u 1, rest 2 u))) =
        (Prod.map id fun v : Stream => (v 0, rest 1 v)) ∘ fun u => (u 0, rest 1 u) := by
      funext u; simp only [Function.comp, Prod.map, rest_rest]; rfl
    rw [this, ← Measure.map_map, draws_head, ← Measure.map_prod_map, draws_head, Measure.map_id]
    · exact measurable_id
    · exact (measurable_pi_apply 0).prodMk (measurable_rest 1)
    · exact measurable_id.prodMap ((measurable_pi_apply 0).prodMk (measurable_rest 1))
    · exact (measurable_pi_apply 0).prodMk (measurable_rest 1)
  have h2 : (fun u : Stream => ((u 0, u 1), rest 2 u)) = MeasurableEquiv.prodAssoc.symm ∘ fun u => (u 0, (u 1, rest 2 u)) := rfl
  rw [h2, ← Measure.map_map MeasurableEquiv.prodAssoc.symm.measurable, h1]
  · have := (measurePreserving_prodAssoc unif unif Draws).symm
    exact this.map_eq
  · exact (measurable_pi_apply 0).prodMk ((measurable_pi_apply 1).prodMk (measurable_rest 2))

/-! ### Rejection loops -/

section
variable {γ : Type} {b : ℕ} {B : Stream → γ} {A : Set γ}

/-- a rejection loop whose rounds look at the next `b` draws through `B` and accept in `A`. -/
noncomputable def rej {α : Type} (b : ℕ) (B : Stream → γ) (A : Set γ) (g : γ → α) (u : Stream) (n : ℕ) : Res ℕ α :=
  match firstRound b (fun i => B (rest i u) ∈ A) n with
  | none => .diverge
  | some i => .ok (g (B (rest i u))) (i + b)

theorem firstRound_rest (b : ℕ) (u : Stream) (n : ℕ) :
    firstRound b (fun i => B (rest i u) ∈ A) n =
      (firstRound b (fun i => B (rest i (rest n u)) ∈ A) 0).map (n + ·) := by
  classical
  unfold firstRound
  simp only [rest_rest, zero_add]
  split <;> simp

theorem rej_fresh {α : Type} (g : γ → α) (u : Stream) (n : ℕ) :
    rej b B A g u n = (rej b B A g (rest n u) 0).mapState (n + ·) := by
  unfold rej
  rw [firstRound_rest]
  cases firstRound b (fun i => B (rest i (rest n u)) ∈ A) 0 with
  | none => rfl
  | some i => simp [Res.mapState, rest_rest, Nat.add_assoc]

open Classical in
theorem rounds_ex (b : ℕ) (B : Stream → γ) (A : Set γ) (u : Stream) :
    ∃ k, B (rest (b * k) u) ∈ A ∨ ∀ j, B (rest (b * j) u) ∉ A := by
  by_cases h : ∃ k, B (rest (b * k) u) ∈ A
  · exact ⟨h.choose, Or.inl h.choose_spec⟩
  · exact ⟨0, Or.inr fun j hj => h ⟨j, hj⟩⟩

open Classical in
/-- number of rejected rounds. -/
noncomputable def rounds (b : ℕ) (B : Stream → γ) (A : Set γ) (u : Stream) : ℕ := Nat.find (rounds_ex b B A u)

theorem rounds_zero {u : Stream} (h : B u ∈ A) : rounds b B A u = 0 := by
  classical
  rw [rounds, Nat.find_eq_zero]
  left; simpa using h

theorem rounds_succ {u : Stream} (h : B u ∉ A) (hex : ∃ k, B (rest (b * k) u) ∈ A) :
    rounds b B A u = rounds b B A (rest b u) + 1 := by
  classical
  obtain ⟨k, hk⟩ := hex
  have hn : ¬ ∀ j, B (rest (b * j) u) ∉ A := fun hh => hh k hk
  have hn' : ¬ ∀ j, B (rest (b * j) (rest b u)) ∉ A := by
    intro hh
    cases k with
    | zero => simp at hk; exact h hk
    | succ k => apply hh k; rw [rest_rest]; rwa [Nat.mul_succ, Nat.add_comm] at hk
  rw [rounds, Nat.find_eq_iff]
  constructor
  · have := Nat.find_spec (rounds_ex b B A (rest b u))
    rcases this with h1 | h1
    · left; rw [rest_rest] at h1; rw [Nat.mul_succ, Nat.add_comm]; exact h1
    · exact absurd h1 hn'
  · rintro j hj (h1 | h1)
    · cases j with
      | zero => simp at h1; exact h h1
      | succ j =>
        have := Nat.find_min (rounds_ex b B A (rest b u)) (m := j) (by unfold rounds at hj; omega)
        apply this; left; rw [rest_rest]; rwa [Nat.mul_succ, Nat.add_comm] at h1
    · exact hn h1

theorem rej_eq {α : Type} (g : γ → α) {u : Stream} (hex : ∃ k, B (rest (b * k) u) ∈ A) :
    rej b B A g u 0 = .ok (g (B (rest (b * rounds b B A u) u))) (b * rounds b B A u + b) := by
  classical
  have e : firstRound b (fun i => B (rest i u) ∈ A) 0 = some (b * rounds b B A u) := by
    unfold firstRound
    rw [dif_pos (by simpa using hex)]
    simp only [zero_add, Option.some.injEq]
    congr 1
    rw [rounds, eq_comm, Nat.find_eq_iff]
    constructor
    · left; have := Nat.find_spec hex; exact this
    · rintro j hj (h1 | h1)
      · exact Nat.find_min hex hj h1
      · obtain ⟨k, hk⟩ := hex; exact h1 k hk
  unfold rej; rw [e]

variable [MeasurableSpace γ]

theorem measurable_rounds (hB : Measurable B) (hA : MeasurableSet A) : Measurable (rounds b B A) := by
  classical
  unfold rounds
  have hm : ∀ k, MeasurableSet {u | B (rest (b * k) u) ∈ A} := fun k => (hB.comp (measurable_rest _)) hA
  refine measurable_find _ fun k => ?_
  have : {x | B (rest (b * k) x) ∈ A ∨ ∀ j, B (rest (b * j) x) ∉ A} =
      {u | B (rest (b * k) u) ∈ A} ∪ ⋂ j, {u | B (rest (b * j) u) ∈ A}ᶜ := by
    ext u; simp
  rw [this]
  exact (hm k).union (MeasurableSet.iInter fun j => (hm j).compl)

/-- With probability one some round is accepted. -/
theorem rounds_ae (hB : Measurable B) (hA : MeasurableSet A) {μ : Measure γ} [IsProbabilityMeasure μ]
    (hblock : Draws.map (fun u => (B u, rest b u)) = μ.prod Draws) (h0 : μ A ≠ 0) :
    ∀ᵐ u ∂Draws, ∃ k, B (rest (b * k) u) ∈ A := by
  have hm : ∀ k, MeasurableSet {u | B (rest (b * k) u) ∈ A} := fun k => (hB.comp (measurable_rest _)) hA
  let E : Set Stream := ⋂ k, {u | B (rest (b * k) u) ∈ A}ᶜ
  have hE : MeasurableSet E := MeasurableSet.iInter fun j => (hm j).compl
  have e : E = (fun u => (B u, rest b u)) ⁻¹' (Aᶜ ×ˢ E) := by
    ext u
    simp only [E, Set.mem_iInter, Set.mem_compl_iff, Set.mem_preimage, Set.mem_prod]
    constructor
    · intro h
      refine ⟨by simpa using h 0, fun k => ?_⟩
      have := h (k + 1)
      simp only [Set.mem_ofPred_eq] at this ⊢
      rw [rest_rest]; rwa [Nat.mul_succ, Nat.add_comm] at this
    · rintro ⟨h1, h2⟩ k
      cases k with
      | zero => simpa using h1
      | succ k =>
        have := h2 k
        simp only [Set.mem_ofPred_eq] at this ⊢
        rw [rest_rest] at this; rwa [Nat.mul_succ, Nat.add_comm]
  have h1 : Draws E = μ Aᶜ * Draws E := by
    conv_lhs => rw [e]
    rw [← Measure.map_apply (hB.prodMk (measurable_rest b)) (hA.compl.prod hE), hblock, Measure.prod_prod]
  have h2 : Draws E = 0 := by
    by_contra h
    have hlt : μ Aᶜ < 1 := by
      rw [prob_compl_eq_one_sub hA]
      exact ENNReal.sub_lt_self (by simp) (by simp) h0
    have : μ Aᶜ * Draws E < 1 * Draws E := by
      gcongr
      exact measure_ne_top _ _
    rw [one_mul, ← h1] at this
    exact lt_irrefl _ this
  rw [ae_iff]
  convert h2 using 2
  ext u; simp [E]

/-- The accepted round has the conditional law and what follows is fresh. -/
theorem rej_law (hB : Measurable B) (hA : MeasurableSet A) {μ : Measure γ} [IsProbabilityMeasure μ]
    (hblock : Draws.map (fun u => (B u, rest b u)) = μ.prod Draws) (h0 : μ A ≠ 0) :
    Draws.map (fun u => (B (rest (b * rounds b B A u) u), rest (b * rounds b B A u + b) u)) = (μ[|A]).prod Draws := by
  have hr := measurable_rounds (b := b) hB hA
  have hΦ : Measurable (fun u => (B (rest (b * rounds b B A u) u), rest (b * rounds b B A u + b) u)) :=
    (hB.comp (measurable_restN (hr.const_mul b))).prodMk (measurable_restN ((hr.const_mul b).add_const b))
  set Φ := fun u => (B (rest (b * rounds b B A u) u), rest (b * rounds b B A u + b) u) with hΦd
  have hblk : Measurable fun u => (B u, rest b u) := hB.prodMk (measurable_rest b)
  have hp : IsProbabilityMeasure (μ[|A]) := cond_isProbabilityMeasure h0
  refine Measure.ext fun E hE => ?_
  rw [Measure.map_apply hΦ hE]
  have hAB : MeasurableSet (B ⁻¹' A) := hB hA
  have e1 : Draws (Φ ⁻¹' E ∩ B ⁻¹' A) = (μ.prod Draws) (E ∩ A ×ˢ Set.univ) := by
    rw [← hblock, Measure.map_apply hblk (hE.inter (hA.prod .univ))]
    congr 1; ext u
    simp only [Set.mem_inter_iff, Set.mem_preimage, Set.mem_prod, Set.mem_univ, and_true, and_congr_left_iff]
    intro h
    simp [hΦd, rounds_zero h]
  have e2 : Draws (Φ ⁻¹' E \ B ⁻¹' A) = μ Aᶜ * Draws (Φ ⁻¹' E) := by
    have : Draws ((fun u => (B u, rest b u)) ⁻¹' (Aᶜ ×ˢ (Φ ⁻¹' E))) = μ Aᶜ * Draws (Φ ⁻¹' E) := by
      rw [← Measure.map_apply hblk (hA.compl.prod (hΦ hE)), hblock, Measure.prod_prod]
    rw [← this]
    refine measure_congr ?_
    filter_upwards [rounds_ae hB hA hblock h0] with u hu
    refine propext ?_
    change (Φ u ∈ E ∧ ¬ B u ∈ A) ↔ (¬ B u ∈ A ∧ Φ (rest b u) ∈ E)
    rw [and_comm]
    refine and_congr_right fun h => ?_
    have : Φ u = Φ (rest b u) := by
      simp only [hΦd, rest_rest]
      have hn : b * rounds b B A u = b + b * rounds b B A (rest b u) := by rw [rounds_succ h hu]; ring
      rw [hn, Nat.add_assoc]
    rw [this]
  have e3 : Draws (Φ ⁻¹' E) = (μ.prod Draws) (E ∩ A ×ˢ Set.univ) + μ Aᶜ * Draws (Φ ⁻¹' E) := by
    conv_lhs => rw [← measure_inter_add_sdiff (Φ ⁻¹' E) hAB]
    rw [e1, e2]
  have e4 : μ A * Draws (Φ ⁻¹' E) + μ Aᶜ * Draws (Φ ⁻¹' E) =
      (μ.prod Draws) (E ∩ A ×ˢ Set.univ) + μ Aᶜ * Draws (Φ ⁻¹' E) := by
    rw [← add_mul, prob_add_prob_compl hA, one_mul]; exact e3
  have hfin : μ Aᶜ * Draws (Φ ⁻¹' E) ≠ ⊤ := ENNReal.mul_ne_top (measure_ne_top _ _) (measure_ne_top _ _)
  have e5 : μ A * Draws (Φ ⁻¹' E) = (μ.prod Draws) (E ∩ A ×ˢ Set.univ) := (ENNReal.add_left_inj hfin).1 e4
  have e6 : (μ[|A]).prod Draws = (μ A)⁻¹ • (μ.prod Draws).restrict (A ×ˢ Set.univ) := by
    rw [ProbabilityTheory.cond, Measure.prod_smul_left, ← Measure.prod_restrict, Measure.restrict_univ]
  rw [e6, Measure.smul_apply, Measure.restrict_apply hE, ← e5, smul_eq_mul, ← mul_assoc,
    ENNReal.inv_mul_cancel h0 (measure_ne_top _ _), one_mul]

/-- A rejection loop has the conditional law of its accepted rounds. -/
theorem rej_samples {α β : Type} [MeasurableSpace β] (hB : Measurable B) (hA : MeasurableSet A) {μ : Measure γ}
    [IsProbabilityMeasure μ] (hblock : Draws.map (fun u => (B u, rest b u)) = μ.prod Draws) (h0 : μ A ≠ 0)
    (g : γ → α) (emb : β → α) (g' : γ → β) (hg' : Measurable g') (hg : ∀ᵐ x ∂μ, x ∈ A → g x = emb (g' x)) :
    Samples (rej b B A g) emb ((μ[|A]).map g') := by
  have hr := measurable_rounds (b := b) hB hA
  have hp : IsProbabilityMeasure (μ[|A]) := cond_isProbabilityMeasure h0
  have hΦ : Measurable (fun u => (B (rest (b * rounds b B A u) u), rest (b * rounds b B A u + b) u)) :=
    (hB.comp (measurable_restN (hr.const_mul b))).prodMk (measurable_restN ((hr.const_mul b).add_const b))
  have hlaw := rej_law hB hA hblock h0
  refine ⟨rej_fresh g, fun u => g' (B (rest (b * rounds b B A u) u)), fun u => b * rounds b B A u + b,
    hg'.comp (hB.comp (measurable_restN (hr.const_mul b))), (hr.const_mul b).add_const b, ?_, ?_⟩
  · have h1 : ∀ᵐ p ∂((μ[|A]).prod Draws), g p.1 = emb (g' p.1) := by
      have : ∀ᵐ x ∂(μ[|A]), g x = emb (g' x) := by
        filter_upwards [cond_absolutelyContinuous.ae_le hg, ae_cond_mem hA] with x hx hxA using hx hxA
      exact (Measure.quasiMeasurePreserving_fst (μ := μ[|A]) (ν := Draws)).ae this
    rw [← hlaw] at h1
    have h2 := ae_of_ae_map hΦ.aemeasurable h1
    filter_upwards [h2, rounds_ae hB hA hblock h0] with u hu hex
    rw [rej_eq g hex]
    rw [hu]
  · have : (fun u => (g' (B (rest (b * rounds b B A u) u)), rest (b * rounds b B A u + b) u)) =
        Prod.map g' id ∘ (fun u => (B (rest (b * rounds b B A u) u), rest (b * rounds b B A u + b) u)) := rfl
    rw [this, ← Measure.map_map (hg'.prodMap measurable_id) hΦ, hlaw, ← Measure.map_prod_map _ _ hg' measurable_id,
      Measure.map_id]

end

/-! ### Sequencing -/

section
variable {α₁ α₂ α β₁ β₂ β : Type} [MeasurableSpace β₁] [MeasurableSpace β₂] [MeasurableSpace β]

theorem Samples.map {s : Stream → ℕ → Res ℕ α₁} {emb₁ : β₁ → α₁} {ν : Measure β₁} [IsProbabilityMeasure ν]
    (h : Samples s emb₁ ν) (f : α₁ → α) (g : β₁ → β) (hg : Measurable g) (emb : β → α)
    (hf : ∀ x, f (emb₁ x) = emb (g x)) :
    Samples (fun u n => (s u n).bind fun x n' => .ok (f x) n') emb (ν.map g) := by
  obtain ⟨X, N, hX, hN, hok, hlaw⟩ := h.law
  refine ⟨fun u n => ?_, fun u => g (X u), N, hg.comp hX, hN, ?_, ?_⟩
  · rw [h.fresh]; cases s (rest n u) 0 <;> rfl
  · filter_upwards [hok] with u hu
    rw [hu]; simp [Res.bind, hf]
  · have : (fun u => (g (X u), rest (N u) u)) = Prod.map g id ∘ fun u => (X u, rest (N u) u) := rfl
    rw [this, ← Measure.map_map (hg.prodMap measurable_id) (hX.prodMk (measurable_restN hN)), hlaw,
      ← Measure.map_prod_map _ _ hg measurable_id, Measure.map_id]

/-- What is left after a call is fresh. -/
theorem map_restN {ν : Measure β} [IsProbabilityMeasure ν] {X : Stream → β} {N : Stream → ℕ} (hX : Measurable X)
    (hN : Measurable N) (hlaw : Draws.map (fun u => (X u, rest (N u) u)) = ν.prod Draws) :
    Draws.map (fun u => rest (N u) u) = Draws := by
  have : (fun u => rest (N u) u) = Prod.snd ∘ fun u => (X u, rest (N u) u) := rfl
  rw [this, ← Measure.map_map measurable_snd (hX.prodMk (measurable_restN hN)), hlaw]
  have := Measure.snd_prod (μ := ν) (ν := Draws)
  exact this

theorem Samples.seq {s₁ : Stream → ℕ → Res ℕ α₁} {emb₁ : β₁ → α₁} {ν₁ : Measure β₁} [IsProbabilityMeasure ν₁]
    {s₂ : Stream → ℕ → Res ℕ α₂} {emb₂ : β₂ → α₂} {ν₂ : Measure β₂} [IsProbabilityMeasure ν₂]
    (h₁ : Samples s₁ emb₁ ν₁) (h₂ : Samples s₂ emb₂ ν₂) (f : α₁ → α₂ → α) (g : β₁ × β₂ → β) (hg : Measurable g)
    (emb : β → α) (hf : ∀ x y, f (emb₁ x) (emb₂ y) = emb (g (x, y))) :
    Samples (fun u n => (s₁ u n).bind fun x n' => (s₂ u n').bind fun y n'' => .ok (f x y) n'') emb ((ν₁.prod ν₂).map g) := by
  obtain ⟨X₁, N₁, hX₁, hN₁, hok₁, hlaw₁⟩ := h₁.law
  obtain ⟨X₂, N₂, hX₂, hN₂, hok₂, hlaw₂⟩ := h₂.law
  have hv : Measurable fun u => rest (N₁ u) u := measurable_restN hN₁
  have hpair : Measurable fun u => (X₁ u, rest (N₁ u) u) := hX₁.prodMk hv
  have hpair₂ : Measurable fun u => (X₂ u, rest (N₂ u) u) := hX₂.prodMk (measurable_restN hN₂)
  refine ⟨fun u n => ?_, fun u => g (X₁ u, X₂ (rest (N₁ u) u)), fun u => N₁ u + N₂ (rest (N₁ u) u),
    hg.comp (hX₁.prodMk (hX₂.comp hv)), hN₁.add (hN₂.comp hv), ?_, ?_⟩
  · rw [h₁.fresh]
    cases s₁ (rest n u) 0 with
    | ok x k =>
      simp only [Res.mapState, Res.bind]
      rw [h₂.fresh, h₂.fresh (rest n u), rest_rest]
      cases s₂ (rest (n + k) u) 0 <;> simp [Res.mapState, Nat.add_assoc]
    | throw => rfl
    | ub => rfl
    | diverge => rfl
  · have h2 : ∀ᵐ u ∂Draws, s₂ (rest (N₁ u) u) 0 = .ok (emb₂ (X₂ (rest (N₁ u) u))) (N₂ (rest (N₁ u) u)) := by
      rw [← map_restN hX₁ hN₁ hlaw₁] at hok₂
      exact ae_of_ae_map hv.aemeasurable hok₂
    filter_upwards [hok₁, h2] with u hu hu2
    rw [hu]; simp only [Res.bind]
    rw [h₂.fresh, hu2]
    simp [Res.mapState, hf]
  · have e : (fun u => (g (X₁ u, X₂ (rest (N₁ u) u)), rest (N₁ u + N₂ (rest (N₁ u) u)) u)) =
        Prod.map g id ∘ MeasurableEquiv.prodAssoc.symm ∘ (Prod.map id fun v => (X₂ v, rest (N₂ v) v)) ∘
          fun u => (X₁ u, rest (N₁ u) u) := by
      funext u; simp only [Function.comp, Prod.map, rest_rest]; rfl
    have m1 : Measurable (Prod.map (id : β₁ → β₁) fun v => (X₂ v, rest (N₂ v) v)) := measurable_id.prodMap hpair₂
    have m2 : Measurable (Prod.map g (id : Stream → Stream)) := hg.prodMap measurable_id
    rw [e, ← Measure.map_map m2 (MeasurableEquiv.prodAssoc.symm.measurable.comp (m1.comp hpair)),
      ← Measure.map_map MeasurableEquiv.prodAssoc.symm.measurable (m1.comp hpair), ← Measure.map_map m1 hpair, hlaw₁,
      ← Measure.map_prod_map _ _ measurable_id hpair₂, hlaw₂, Measure.map_id,
      (measurePreserving_prodAssoc ν₁ ν₂ Draws).symm.map_eq, ← Measure.map_prod_map _ _ hg measurable_id, Measure.map_id]

/-- Nothing is drawn. -/
theorem Samples.pure (emb : β → α) (x : β) : Samples (fun _ n => .ok (emb x) n) emb (Measure.dirac x) := by
  refine ⟨fun u n => rfl, fun _ => x, fun _ => 0, measurable_const, measurable_const, by simp, ?_⟩
  simp only [rest_zero]
  have : (fun u : Stream => (x, u)) = Prod.mk x := rfl
  rw [this, Measure.dirac_prod]

/-- `m` successive calls give `m` independent values. -/
theorem Samples.calls {s : Stream → ℕ → Res ℕ α} {emb : β → α} {ν : Measure β} [IsProbabilityMeasure ν]
    (h : Samples s emb ν) : ∀ m, Samples (Ideal.calls s m) (fun x : Fin m → β => List.ofFn fun i => emb (x i))
      (Measure.pi fun _ : Fin m => ν) := by
  intro m
  induction m with
  | zero =>
    have := Samples.pure (fun x : Fin 0 → β => List.ofFn fun i => emb (x i)) (fun i => i.elim0)
    rw [Measure.pi_of_empty (fun _ : Fin 0 => ν) (fun i => i.elim0)]
    have e : Ideal.calls s 0 = fun _ n => .ok (List.ofFn fun i : Fin 0 => emb (i.elim0)) n := by
      funext u n; simp [Ideal.calls]
    rw [e]; exact this
  | succ m ih =>
    have hcons : Measurable fun p : β × (Fin m → β) => (Fin.cons p.1 p.2 : Fin (m + 1) → β) := by
      refine measurable_pi_lambda _ fun i => ?_
      refine Fin.cases ?_ (fun j => ?_) i
      · exact measurable_fst
      · simp only [Fin.cons_succ]
        exact (measurable_pi_apply j).comp measurable_snd
    have := h.seq ih (fun x xs => x :: xs) (fun p => (Fin.cons p.1 p.2 : Fin (m + 1) → β)) hcons
      (fun x : Fin (m + 1) → β => List.ofFn fun i => emb (x i)) (fun x y => by simp [List.ofFn_succ])
    have e : (ν.prod (Measure.pi fun _ : Fin m => ν)).map (fun p => (Fin.cons p.1 p.2 : Fin (m + 1) → β)) =
        Measure.pi fun _ : Fin (m + 1) => ν := by
      have := (measurePreserving_piFinSuccAbove (fun _ : Fin (m + 1) => ν) 0).symm.map_eq
      rw [← this]
      congr 1
      funext p; simp [MeasurableEquiv.piFinSuccAbove, Fin.insertNthEquiv]
    rw [e] at this
    exact this

end

end Ideal
end Verif
