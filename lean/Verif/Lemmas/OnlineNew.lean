import Verif.Spec.OnlineNew
import Verif.Lemmas.LrfBatch
import Verif.Lemmas.Camera3
import Verif.Lemmas.Estimator3

/-! The batches of the incremental 2D laser calibration and how they fit together. -/

namespace Verif
namespace OnlineNew
open Lrf
variable {V F M : Type}

/-! ## building keeps batches well formed -/

theorem addVars_binv {ad : Addr} {h : Heap V} (l : List (Var × GroupId)) {p p' : OptProblem V} (hp : BInv h p)
    (hr : addVars ad l p = .ok () p') : BInv h p' := by
  induction l generalizing p with
  | nil => simp only [addVars, Res.ok.injEq, true_and] at hr; rw [← hr]; exact hp
  | cons v l ih =>
    obtain ⟨v, g⟩ := v
    simp only [addVars, addDV_eq] at hr
    by_cases hd : ad.var v ∈ AL.keys p.lookup
    · simp [hd, Res.bind] at hr
    · simp only [hd, if_false, Res.bind] at hr
      exact ih (hp.withDV hd g) hr

theorem addTerms_binv {ad : Addr} {h : Heap V} (l : List Term) {p p' : OptProblem V} (hp : BInv h p)
    (hr : addTerms ad h l p = .ok () p') : BInv h p' := by
  induction l generalizing p with
  | nil => simp only [addTerms, Res.ok.injEq, true_and] at hr; rw [← hr]; exact hp
  | cons t l ih =>
    simp only [addTerms, addET_eq] at hr
    by_cases hd : ad.term t ∈ p.etLookup ∨ ¬ (∀ d ∈ h.etDVs (ad.term t), d ∈ AL.keys p.lookup)
    · rw [if_pos hd] at hr; simp [Res.bind] at hr
    · rw [if_neg hd] at hr
      simp only [Res.bind] at hr
      push Not at hd
      exact ih (hp.withET hd.1 hd.2) hr

theorem batchLoop_binv {ad : Addr} {h : Heap V} {nl : Nat} (m j : Nat) {p p' : OptProblem V} (hp : BInv h p)
    (hr : batchLoop ad h nl m j p = .ok () p') : BInv h p' := by
  induction m generalizing j p with
  | zero => simp only [batchLoop, Res.ok.injEq, true_and] at hr; rw [← hr]; exact hp
  | succ m ih =>
    simp only [batchLoop] at hr
    obtain ⟨u1, p1, h1, hr⟩ := Camera.bind_ok_inv hr
    obtain ⟨u2, p2, h2, hr⟩ := Camera.bind_ok_inv hr
    exact ih _ (addTerms_binv _ (addVars_binv _ hp h1) h2) hr

theorem buildBatch_binv {ad : Addr} {h : Heap V} {steps bs nl i : Nat} {p : OptProblem V}
    (hr : buildBatch ad h steps bs nl i = .ok () p) : BInv h p := by
  simp only [buildBatch] at hr
  obtain ⟨u1, p1, h1, hr⟩ := Camera.bind_ok_inv hr
  exact batchLoop_binv _ _ (addVars_binv _ (BInv.empty h) h1) hr

/-! ## contents -/

/-- the group of a variable. -/
def varGroup : Var → GroupId
  | .state _ => 0
  | .lm _ => 1
  | .theta => 2

/-- the number of further states of a batch. -/
def more (c : Cfg V F M) (i : Nat) : Nat := min (i + c.bs) c.steps - (i + 1)

/-- a batch as built for the start `i`. -/
def IsBatch (c : Cfg V F M) (i : Nat) (p : OptProblem V) : Prop :=
  Built (c.ad.vars (batchVars c.nl i (more c i))) ((termsOf c i).map c.ad.term) p

theorem stepsOf_eq {c : Cfg V F M} {i : Nat} (hi : i < c.steps) (hbs : 0 < c.bs) :
    stepsOf c i = i :: List.range' (i + 1) (more c i) := by
  unfold stepsOf more
  have : min c.bs (c.steps - i) = (min (i + c.bs) c.steps - (i + 1)) + 1 := by omega
  rw [this, List.range'_succ]

theorem isBatch {c : Cfg V F M} {h : Heap V} (hw : Wired c.ad h) {i : Nat} (hi : i < c.steps) (hbs : 0 < c.bs) :
    ∃ p, buildBatch c.ad h c.steps c.bs c.nl i = .ok () p ∧ IsBatch c i p ∧ BInv h p := by
  obtain ⟨p, h1, h2⟩ := buildBatch_built hw c.steps c.bs c.nl i
  refine ⟨p, h1, ?_, buildBatch_binv h1⟩
  unfold IsBatch termsOf
  rw [stepsOf_eq hi hbs]
  exact h2

theorem mem_batchVars {nl i m : Nat} {v : Var} {g : GroupId} :
    (v, g) ∈ batchVars nl i m ↔ g = varGroup v ∧ match v with
      | .state k => i ≤ k ∧ k < i + 1 + m
      | .lm l => l < nl
      | .theta => True := by
  simp only [batchVars, List.mem_append, List.mem_cons, Prod.mk.injEq, List.not_mem_nil, or_false, List.mem_map, List.mem_range,
    List.mem_range'_1]
  cases v with
  | state k =>
    simp only [Var.state.injEq, reduceCtorEq, false_and, or_false, and_false, exists_false, varGroup]
    constructor
    · rintro (⟨rfl, rfl⟩ | ⟨a, ha, rfl, rfl⟩)
      · exact ⟨rfl, by omega⟩
      · exact ⟨rfl, by omega⟩
    · rintro ⟨rfl, h⟩
      by_cases e : k = i
      · exact .inl ⟨e, rfl⟩
      · exact .inr ⟨k, by omega, rfl, rfl⟩
  | lm l =>
    simp only [reduceCtorEq, false_and, or_self, and_false, exists_false, or_false, false_or, varGroup, Var.lm.injEq]
    constructor
    · rintro ⟨a, ha, rfl, rfl⟩; exact ⟨rfl, ha⟩
    · rintro ⟨rfl, h⟩; exact ⟨l, h, rfl, rfl⟩
  | theta =>
    simp only [reduceCtorEq, false_and, true_and, and_false, exists_false, or_false, false_or, varGroup, and_true]

theorem mem_stepsOf {c : Cfg V F M} {i k : Nat} : k ∈ stepsOf c i ↔ i ≤ k ∧ k < i + c.bs ∧ k < c.steps := by
  simp only [stepsOf, List.mem_range'_1]
  omega

/-- which variables a batch holds. -/
def Holds (c : Cfg V F M) (i : Nat) : Var → Prop
  | .state k => k ∈ stepsOf c i
  | .lm l => l < c.nl
  | .theta => True

theorem IsBatch.lookup_iff {c : Cfg V F M} {h : Heap V} {i : Nat} {p : OptProblem V} (hp : IsBatch c i p) (hb : BInv h p)
    (hi : i < c.steps) (hbs : 0 < c.bs) (d : DVId) (g : GroupId) :
    AL.get d p.lookup = some g ↔ ∃ v, d = c.ad.var v ∧ g = varGroup v ∧ Holds c i v := by
  have h1 : AL.get d p.lookup = some g ↔ (d, g) ∈ p.lookup := ⟨AL.get_mem, AL.get_of_mem hb.lk⟩
  rw [h1, hp.lookup]
  simp only [Addr.vars, List.mem_map, Prod.mk.injEq, Prod.exists]
  constructor
  · rintro ⟨v, g', hm, rfl, rfl⟩
    refine ⟨v, rfl, ?_⟩
    have hm' := mem_batchVars.1 hm
    refine ⟨hm'.1, ?_⟩
    replace hm := hm'.2
    cases v with
    | state k =>
      simp only [Holds, mem_stepsOf]; simp only [more] at hm; omega
    | lm l => exact hm
    | theta => trivial
  · rintro ⟨v, rfl, rfl, hm⟩
    refine ⟨v, _, mem_batchVars.2 ⟨rfl, ?_⟩, rfl, rfl⟩
    cases v with
    | state k =>
      simp only [Holds, mem_stepsOf] at hm; simp only [more]; omega
    | lm l => exact hm
    | theta => trivial

theorem filter_map_const {α : Type} (l : List α) (f : α → Var) (g g' : GroupId) :
    (((l.map fun a => (f a, g)).filter fun v : Var × GroupId => v.2 = g').map Prod.fst) = if g = g' then l.map f else [] := by
  by_cases h : g = g'
  · subst h
    rw [if_pos rfl, List.filter_eq_self.2 (by simp)]
    simp [Function.comp_def]
  · rw [if_neg h, List.filter_eq_nil_iff.2 (by simp [h])]
    rfl

/-- the groups of a batch. -/
theorem IsBatch.group {c : Cfg V F M} {i : Nat} {p : OptProblem V} (hp : IsBatch c i p) (hi : i < c.steps) (hbs : 0 < c.bs)
    (g : GroupId) : (AL.get g p.groups).getD [] = (groupOf c [i] g).map c.ad.var := by
  have hf : ((batchVars c.nl i (more c i)).filter fun v => v.2 = g).map Prod.fst = groupOf c [i] g := by
    unfold batchVars groupOf
    rw [List.filter_append, List.filter_append, List.map_append, List.map_append, filter_map_const, filter_map_const]
    simp only [List.flatMap_cons, List.flatMap_nil, List.append_nil, stepsOf_eq hi hbs]
    by_cases h0 : g = 0
    · subst h0
      simp
    · by_cases h1 : g = 1
      · subst h1; simp
      · by_cases h2 : g = 2
        · subst h2; simp
        · simp [h0, h1, h2, Ne.symm h0, Ne.symm h1, Ne.symm h2]
  rw [hp.groups]
  have e : ((c.ad.vars (batchVars c.nl i (more c i))).filter fun v => v.2 = g).map Prod.fst = (groupOf c [i] g).map c.ad.var := by
    rw [← hf]
    unfold Addr.vars
    rw [List.filter_map]
    simp [Function.comp_def]
  split
  · rw [Option.getD_some, e]
  · rename_i hn
    rw [Option.getD_none, ← e]
    symm
    rw [List.map_eq_nil_iff, List.filter_eq_nil_iff]
    intro x hx
    simp only [decide_eq_true_eq]
    intro hg
    exact hn (List.mem_map.2 ⟨x, hx, hg⟩)

theorem mem_termsOf {c : Cfg V F M} {i : Nat} {t : Term} (hi : i < c.steps) (hbs : 0 < c.bs) (h : t ∈ termsOf c i) :
    i < t.step ∧ t.step < i + c.bs := by
  unfold termsOf at h
  rw [stepsOf_eq hi hbs] at h
  obtain ⟨k, hk, ht⟩ := List.mem_flatMap.1 h
  rw [stepTerms_step ht]
  simp only [List.tail_cons, List.mem_range'_1, more] at hk
  omega

/-- two starts of batches. -/
theorem starts_apart {bs i j : Nat} (hi : bs ∣ i) (hj : bs ∣ j) (hne : i ≠ j) : i + bs ≤ j ∨ j + bs ≤ i := by
  obtain ⟨a, rfl⟩ := hi
  obtain ⟨b, rfl⟩ := hj
  rcases Nat.lt_trichotomy a b with h | h | h
  · left
    calc bs * a + bs = bs * (a + 1) := by ring
      _ ≤ bs * b := Nat.mul_le_mul_left _ h
  · subst h; exact absurd rfl hne
  · right
    calc bs * b + bs = bs * (b + 1) := by ring
      _ ≤ bs * a := Nat.mul_le_mul_left _ h

end OnlineNew
end Verif
