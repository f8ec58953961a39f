import Verif.Model.Permute
import Mathlib.Data.List.Perm.Basic
import Mathlib.Data.List.Nodup
import Mathlib.Data.Fintype.EquivFin
import Mathlib.Data.Set.Finite.Basic
import Mathlib.Data.Finset.Card
import Mathlib.Logic.Function.Iterate
import Mathlib.Data.Fintype.Card
import Mathlib.Data.Fintype.Pigeonhole

namespace Verif

/-- One step of the inner loop as a total function (identity outside the vector). -/
def pstep (perm : List Nat) (k : Nat) : Nat := perm.getD k k

theorem chase_eq (perm : List Nat) (i : Nat) (fuel k : Nat) (hi : i ≤ perm.length) :
    chase perm i fuel k =
      (match (List.range (fuel + 1)).find? (fun m => decide (i ≤ (pstep perm)^[m] k)) with
       | some m => .found ((pstep perm)^[m] k)
       | none => .loops) := by
  induction fuel generalizing k with
  | zero =>
    rw [chase]
    by_cases h : k < i
    · have : ¬ i ≤ k := by omega
      simp [h, List.range_succ, this]
    · have : i ≤ k := by omega
      simp [h, List.range_succ, this]
  | succ f ih =>
    rw [chase]
    by_cases h : k < i
    · have h' : ¬ i ≤ k := by omega
      have hk : k < perm.length := by omega
      simp only [h, if_true]
      rw [List.getElem?_eq_getElem hk]
      simp only
      rw [ih, List.range_succ_eq_map (n := f + 1)]
      have e : pstep perm k = perm[k] := by simp [pstep, List.getD, hk]
      rw [List.find?_cons]
      simp only [Function.iterate_zero, id_eq, h', decide_false]
      rw [List.find?_map]
      have : ((fun m => decide (i ≤ (pstep perm)^[m] k)) ∘ Nat.succ)
          = fun m => decide (i ≤ (pstep perm)^[m] perm[k]) := by
        funext m; simp [Function.iterate_succ, e]
      rw [this]
      cases List.find? (fun m => decide (i ≤ (pstep perm)^[m] perm[k])) (List.range (f+1)) <;>
        simp [Function.iterate_succ, e]
    · have : i ≤ k := by omega
      simp only [h, if_false]
      rw [List.range_succ_eq_map]
      simp [this]

/-- Pigeonhole: `i + 1` consecutive iterates below `i` repeat, so all iterates are below `i`. -/
theorem iter_lt_all (f : Nat → Nat) (i k : Nat) (h : ∀ m ≤ i, f^[m] k < i) : ∀ m, f^[m] k < i := by
  have : ∃ a b : Fin (i+1), a ≠ b ∧ f^[a] k = f^[b] k := by
    have := Fintype.exists_ne_map_eq_of_card_lt
      (fun a : Fin (i+1) => (⟨f^[a.1] k, h a.1 (by omega)⟩ : Fin i)) (by simp)
    obtain ⟨a, b, hab, e⟩ := this
    exact ⟨a, b, hab, by simpa using e⟩
  obtain ⟨a, b, hab, e⟩ := this
  wlog hlt : a < b generalizing a b
  · exact this b a hab.symm e.symm (by omega)
  intro m
  induction m using Nat.strong_induction_on with
  | _ m ih =>
    by_cases hm : m ≤ i
    · exact h m hm
    · have e2 : f^[m] k = f^[m - b + a] k := by
        have hmb : m = (m - b) + b := by have := b.2; omega
        conv_lhs => rw [hmb]
        rw [Function.iterate_add_apply, ← e, ← Function.iterate_add_apply]
      rw [e2]
      apply ih
      have := b.2
      have : (a : Nat) < b := hlt
      omega

theorem chase_loops_iff_aux (perm : List Nat) (i k : Nat) (hi : i ≤ perm.length) :
    chase perm i i k = .loops ↔ ∀ m, (pstep perm)^[m] k < i := by
  rw [chase_eq _ _ _ _ hi]
  constructor
  · intro h
    split at h
    · simp at h
    · rename_i hn
      apply iter_lt_all
      intro m hm
      rw [List.find?_eq_none] at hn
      have := hn m (List.mem_range.2 (by omega))
      simpa using this
  · intro h
    split
    · rename_i m hm
      have := List.find?_some hm
      have h2 := h m
      have h3 : i ≤ (pstep perm)^[m] k := by simpa using this
      omega
    · rfl

theorem chase_found {perm : List Nat} {i fuel k m : Nat} (hi : i ≤ perm.length)
    (h : chase perm i fuel k = .found m) :
    ∃ t, m = (pstep perm)^[t] k ∧ i ≤ m ∧ ∀ s < t, (pstep perm)^[s] k < i := by
  rw [chase_eq _ _ _ _ hi] at h
  split at h
  · rename_i t ht
    injection h with h
    refine ⟨t, h.symm, ?_, ?_⟩
    · have := List.find?_some ht
      subst h; simpa using this
    · intro s hs
      have := List.find?_range_eq_some.1 ht
      have := this.2.2 s hs
      simpa using this
  · simp at h

theorem chase_not_oob {perm : List Nat} {i fuel k : Nat} (hi : i ≤ perm.length) :
    chase perm i fuel k ≠ .oob := by
  rw [chase_eq _ _ _ _ hi]; split <;> simp

theorem swapAt_perm {α : Type _} {l l' : List α} {i k : Nat} (h : swapAt l i k = some l') :
    l'.Perm l := by
  unfold swapAt at h
  split at h
  · rename_i a b ha hb
    injection h with h
    subst h
    obtain ⟨hi, rfl⟩ := List.getElem?_eq_some_iff.1 ha
    obtain ⟨hk, rfl⟩ := List.getElem?_eq_some_iff.1 hb
    have := List.set_set_perm (as := l) (i := i) (j := k) hi hk
    exact this
  · simp at h

theorem swapAt_length {α : Type _} {l l' : List α} {i k : Nat} (h : swapAt l i k = some l') :
    l'.length = l.length := (swapAt_perm h).length_eq

theorem swapAt_get {α : Type _} {l l' : List α} {i k : Nat} (h : swapAt l i k = some l') (j : Nat) :
    l'[j]? = if j = k then l[i]? else if j = i then l[k]? else l[j]? := by
  unfold swapAt at h
  split at h
  · rename_i a b ha hb
    injection h with h
    subst h
    obtain ⟨hi, -⟩ := List.getElem?_eq_some_iff.1 ha
    obtain ⟨hk, -⟩ := List.getElem?_eq_some_iff.1 hb
    simp only [List.getElem?_set, List.length_set]
    by_cases h1 : j = k
    · subst h1; simp [hk, ha]
    · simp only [h1, Ne.symm h1, if_false]
      by_cases h2 : j = i
      · subst h2; simp [hi, hb]
      · simp [h2, Ne.symm h2]
  · simp at h

theorem swapAt_isSome {α : Type _} {l : List α} {i k : Nat} (hi : i < l.length) (hk : k < l.length) :
    ∃ l', swapAt l i k = some l' := by
  simp [swapAt, hi, hk]

theorem permuteLoop_perm {α : Type _} (perm : List Nat) (n i : Nat) (c c' : List α)
    (h : (permuteLoop perm n i c).state? = some c') : c'.Perm c := by
  induction n generalizing i c with
  | zero => simp [permuteLoop, Res.state?] at h; subst h; exact List.Perm.refl _
  | succ n ih =>
    rw [permuteLoop] at h
    split at h
    · simp [Res.state?] at h
    · split at h
      · simp [Res.state?] at h; subst h; exact List.Perm.refl _
      · split at h
        · simp [Res.state?] at h
        · simp [Res.state?] at h
        · split at h
          · split at h
            · simp [Res.state?] at h
            · rename_i hs
              exact (ih _ _ h).trans (swapAt_perm hs)
          · exact ih _ _ h

/-- The value found by the inner loop is in range when all earlier entries are. -/
theorem chase_found_lt {perm : List Nat} {i fuel k m N : Nat} (hi : i ≤ perm.length)
    (hall : ∀ j < i, pstep perm j < N) (hk : k < N)
    (h : chase perm i fuel k = .found m) : m < N := by
  obtain ⟨t, rfl, -, h2⟩ := chase_found hi h
  cases t with
  | zero => simpa using hk
  | succ t =>
    rw [Function.iterate_succ_apply']
    exact hall _ (h2 t (by omega))

theorem pstep_lt {perm : List Nat} {j : Nat} (h : j < perm.length) : pstep perm j = perm[j] := by
  simp [pstep, List.getD, h]

theorem permuteLoop_not_ub {α : Type _} (perm : List Nat) (n i : Nat) (c : List α)
    (hl : perm.length = c.length) (hn : i + n = c.length) (hall : ∀ j < i, pstep perm j < c.length) :
    permuteLoop perm n i c ≠ .ub := by
  induction n generalizing i c with
  | zero => simp [permuteLoop]
  | succ n ih =>
    rw [permuteLoop]
    have hi : i < perm.length := by omega
    rw [List.getElem?_eq_getElem hi]
    simp only
    split
    · simp
    · rename_i hpi
      have hpi : perm[i] < c.length := by omega
      have hall' : ∀ j < i + 1, pstep perm j < c.length := by
        intro j hj
        by_cases h : j = i
        · subst h; rw [pstep_lt hi]; exact hpi
        · exact hall j (by omega)
      split
      · rename_i h; exact absurd h (chase_not_oob (by omega))
      · simp
      · rename_i k hk
        have hk' := chase_found_lt (by omega) hall hpi hk
        split
        · obtain ⟨l', hl'⟩ := swapAt_isSome (l := c) (i := i) (k := k) (by omega) hk'
          rw [hl']
          have := swapAt_length hl'
          exact ih (i+1) l' (by omega) (by omega) (by rw [this]; exact hall')
        · exact ih (i+1) c hl (by omega) hall'

theorem iter_ne_start {f : Nat → Nat} (hf : Function.Injective f) {i x y t u : Nat}
    (hx : ∀ j < i, f j ≠ x) (htu : t ≤ u)
    (hu : ∀ s < u, f^[s] y < i) (h : f^[t] x = f^[u] y) : x = y := by
  have h' : f^[t] x = f^[t] (f^[u - t] y) := by
    rw [← Function.iterate_add_apply]; rw [show t + (u - t) = u by omega]; exact h
  have h'' := (hf.iterate t) h'
  rcases Nat.eq_zero_or_pos (u - t) with h0 | h0
  · simpa [h0] using h''
  · exfalso
    obtain ⟨d, hd⟩ : ∃ d, u - t = d + 1 := ⟨u - t - 1, by omega⟩
    rw [hd, Function.iterate_succ_apply'] at h''
    exact hx _ (hu d (by omega)) h''.symm

theorem pstep_injective {perm : List Nat} (h : perm.Perm (List.range perm.length)) :
    Function.Injective (pstep perm) := by
  have hnd : perm.Nodup := h.nodup_iff.2 List.nodup_range
  have hlt : ∀ x ∈ perm, x < perm.length := fun x hx => List.mem_range.1 (h.mem_iff.1 hx)
  intro a b hab
  by_cases ha : a < perm.length <;> by_cases hb : b < perm.length
  · rw [pstep_lt ha, pstep_lt hb] at hab
    exact (List.Nodup.getElem_inj_iff hnd).1 hab
  · rw [pstep_lt ha] at hab
    have := hlt _ (List.getElem_mem ha)
    simp [pstep, List.getD, hb] at hab
    omega
  · rw [pstep_lt hb] at hab
    have := hlt _ (List.getElem_mem hb)
    simp [pstep, List.getD, ha] at hab
    omega
  · simpa [pstep, List.getD, ha, hb] using hab

/-- For an injective step, the inner loop ends whenever the start is not in the image of the processed indices. -/
theorem exists_iter_ge {f : Nat → Nat} (hf : Function.Injective f) {i x : Nat} (hx : ∀ j < i, f j ≠ x) :
    ∃ m, i ≤ f^[m] x := by
  by_contra hcon
  have hlt : ∀ m, f^[m] x < i := by
    intro m; by_contra h; exact hcon ⟨m, by omega⟩
  obtain ⟨a, b, hab, e⟩ := Fintype.exists_ne_map_eq_of_card_lt
    (fun a : Fin (i+1) => (⟨f^[a.1] x, hlt a.1⟩ : Fin i)) (by simp)
  have e : f^[a.1] x = f^[b.1] x := by simpa using e
  wlog h : a < b generalizing a b
  · exact this b a hab.symm (by simp [e]) e.symm (by omega)
  have hlt' : a.1 < b.1 := h
  have h1 : f^[a.1] x = f^[a.1] (f^[b.1 - a.1] x) := by
    rw [← Function.iterate_add_apply, show a.1 + (b.1 - a.1) = b.1 by omega]; exact e
  have h2 := (hf.iterate a.1) h1
  obtain ⟨d, hd⟩ : ∃ d, b.1 - a.1 = d + 1 := ⟨b.1 - a.1 - 1, by omega⟩
  rw [hd, Function.iterate_succ_apply'] at h2
  exact hx _ (hlt d) h2.symm

/-- Loop invariant of `permute`. -/
structure PermInv {α : Type _} (perm : List Nat) (orig c : List α) (i : Nat) : Prop where
  len : c.length = orig.length
  done : ∀ j < i, c[j]? = orig[pstep perm j]?
  rest : ∀ x < orig.length, (∀ j < i, pstep perm j ≠ x) → ∀ t, (∀ s < t, (pstep perm)^[s] x < i) →
    i ≤ (pstep perm)^[t] x → c[(pstep perm)^[t] x]? = orig[x]?

theorem permuteLoop_correct {α : Type _} (perm : List Nat) (orig : List α)
    (hl : perm.length = orig.length) (hp : perm.Perm (List.range perm.length)) (n i : Nat) (c : List α)
    (hn : i + n = orig.length) (hinv : PermInv perm orig c i) :
    ∃ c', permuteLoop perm n i c = .ok () c' ∧ PermInv perm orig c' orig.length := by
  have hinj := pstep_injective hp
  have hlt : ∀ j < orig.length, pstep perm j < orig.length := by
    intro j hj
    rw [pstep_lt (by omega)]
    have := List.mem_range.1 (hp.mem_iff.1 (List.getElem_mem (l := perm) (n := j) (by omega)))
    omega
  induction n generalizing i c with
  | zero =>
    have : i = orig.length := by omega
    subst this
    exact ⟨c, rfl, hinv⟩
  | succ n ih =>
    have hi : i < perm.length := by omega
    rw [permuteLoop, List.getElem?_eq_getElem hi]
    have hpi := hlt i (by omega)
    rw [pstep_lt hi] at hpi
    have : ¬ perm[i] ≥ c.length := by rw [hinv.len]; omega
    simp only [this, if_false]
    have hnot : ∀ j < i, pstep perm j ≠ perm[i] := by
      intro j hj h
      rw [← pstep_lt hi] at h
      have := hinj h
      omega
    cases hc : chase perm i i perm[i] with
    | oob => exact absurd hc (chase_not_oob (by omega))
    | loops =>
      exfalso
      have := (chase_loops_iff_aux perm i perm[i] (by omega)).1 hc
      obtain ⟨m, hm⟩ := exists_iter_ge hinj hnot
      have := this m
      omega
    | found k =>
      obtain ⟨t, hk, hik, hts⟩ := chase_found (by omega) hc
      have hklt : k < orig.length :=
        chase_found_lt (by omega) (fun j hj => hlt j (by omega)) hpi hc
      have hck : c[k]? = orig[perm[i]]? := by
        rw [hk]; exact hinv.rest _ hpi hnot t hts (hk ▸ hik)
      simp only
      -- common: location of another untouched x
      have hother : ∀ x < orig.length, (∀ j < i + 1, pstep perm j ≠ x) → ∀ u,
          (∀ s < u, (pstep perm)^[s] x < i) → (pstep perm)^[u] x ≠ k := by
        intro x hx hxn u hu h
        have hxi : pstep perm i ≠ x := hxn i (by omega)
        have hxn' : ∀ j < i, pstep perm j ≠ x := fun j hj => hxn j (by omega)
        rw [hk] at h
        rw [pstep_lt hi] at hxi
        rcases Nat.le_total u t with h1 | h1
        · exact hxi (iter_ne_start hinj hxn' h1 hts h).symm
        · exact hxi (iter_ne_start hinj hnot h1 hu h.symm)
      -- first arrival at a value ≥ i
      have key : ∀ c', c'.length = orig.length →
          (∀ j, c'[j]? = if j = k then c[i]? else if j = i then c[k]? else c[j]?) →
          PermInv perm orig c' (i + 1) := by
        intro c' hlen hget
        refine ⟨hlen, ?_, ?_⟩
        · intro j hj
          by_cases hji : j = i
          · subst hji
            rw [hget, pstep_lt hi]
            by_cases hkj : j = k
            · subst hkj; simp; exact hck
            · simp [hkj, hck]
          · have h1 : j ≠ k := by omega
            rw [hget]; simp only [h1, hji, if_false]
            exact hinv.done j (by omega)
        · intro x hx hxn u hu hge
          have hxn' : ∀ j < i, pstep perm j ≠ x := fun j hj => hxn j (by omega)
          -- does the orbit hit i before u?
          by_cases hhit : ∃ v < u, (pstep perm)^[v] x = i
          · obtain ⟨v, hv, hvi⟩ := hhit
            -- everything before v is < i
            have hv' : ∀ s < v, (pstep perm)^[s] x < i := by
              intro s hs
              have h1 := hu s (by omega)
              rcases Nat.lt_succ_iff_lt_or_eq.1 h1 with h2 | h2
              · exact h2
              · exfalso
                -- orbit visits i twice: periodic, never exceeds i
                have h3 : (pstep perm)^[s] x = (pstep perm)^[s] ((pstep perm)^[v - s] x) := by
                  rw [← Function.iterate_add_apply, show s + (v - s) = v by omega, hvi, h2]
                have h4 := (hinj.iterate s) h3
                obtain ⟨d, hd⟩ : ∃ d, v - s = d + 1 := ⟨v - s - 1, by omega⟩
                rw [hd, Function.iterate_succ_apply'] at h4
                exact hxn _ (hu d (by omega)) h4.symm
            have hci : c[i]? = orig[x]? := by
              rw [← hvi]; exact hinv.rest x hx hxn' v hv' (by omega)
            -- after i the orbit follows perm[i]
            have hfol : ∀ w, (pstep perm)^[v + 1 + w] x = (pstep perm)^[w] perm[i] := by
              intro w
              rw [show v + 1 + w = w + (v + 1) by omega, Function.iterate_add_apply,
                Function.iterate_succ_apply', hvi, pstep_lt hi]
            -- u = v + 1 + t
            have hki : k ≠ i := by
              intro h
              exact hother x hx hxn v hv' (by rw [hvi, h])
            have hut : u = v + 1 + t := by
              rcases Nat.lt_trichotomy u (v + 1 + t) with h | h | h
              · exfalso
                have e := hfol (u - (v + 1))
                rw [show v + 1 + (u - (v+1)) = u by omega] at e
                have := hts (u - (v+1)) (by omega)
                omega
              · exact h
              · exfalso
                have := hu (v + 1 + t) h
                rw [hfol, ← hk] at this
                omega
            rw [hut, hfol, ← hk, hget]
            simp [hci]
          · have hu' : ∀ s < u, (pstep perm)^[s] x < i := by
              intro s hs
              have h1 := hu s hs
              have h2 : (pstep perm)^[s] x ≠ i := fun h => hhit ⟨s, hs, h⟩
              omega
            have h1 := hother x hx hxn u hu'
            have h2 : (pstep perm)^[u] x ≠ i := by omega
            rw [hget]; simp only [h1, h2, if_false]
            exact hinv.rest x hx hxn' u hu' (by omega)
      by_cases hkgt : k > i
      · simp only [hkgt, if_true]
        obtain ⟨l', hl'⟩ := swapAt_isSome (l := c) (i := i) (k := k) (by rw [hinv.len]; omega)
          (by rw [hinv.len]; exact hklt)
        rw [hl']
        exact ih (i+1) l' (by omega) (key l' (by rw [swapAt_length hl', hinv.len]) (swapAt_get hl'))
      · simp only [hkgt, if_false]
        have hki : k = i := by omega
        refine ih (i+1) c (by omega) (key c hinv.len ?_)
        intro j
        subst hki
        by_cases h : j = k <;> simp [h]

theorem permInv_init {α : Type _} (perm : List Nat) (orig : List α) : PermInv perm orig orig 0 where
  len := rfl
  done := by simp
  rest := by
    intro x hx _ t ht _
    cases t with
    | zero => rfl
    | succ t => exact absurd (ht 0 (by omega)) (by simp)

end Verif
