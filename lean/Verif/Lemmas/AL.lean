import Verif.Model.Prelude
import Mathlib.Data.List.Nodup
import Mathlib.Data.List.Perm.Basic

namespace Verif.AL
variable {K V : Type _} [DecidableEq K]

@[simp] theorem get_nil (k : K) : get k ([] : List (K × V)) = none := rfl

theorem get_cons (k k' : K) (v : V) (l : List (K × V)) :
    get k ((k', v) :: l) = if k' = k then some v else get k l := rfl

theorem get_set (k k' : K) (v : V) (l : List (K × V)) :
    get k' (set k v l) = if k = k' then some v else get k' l := by
  induction l with
  | nil => simp [set, get]
  | cons a l ih =>
    obtain ⟨a, w⟩ := a
    simp only [set]
    by_cases h : a = k
    · subst h; simp [get_cons]; split <;> simp_all
    · simp only [h, if_false, get_cons, ih]
      by_cases h' : a = k' <;> by_cases h'' : k = k' <;> simp_all

@[simp] theorem get_set_self (k : K) (v : V) (l : List (K × V)) : get k (set k v l) = some v := by
  simp [get_set]

theorem get_set_ne {k k' : K} (h : k ≠ k') (v : V) (l : List (K × V)) :
    get k' (set k v l) = get k' l := by simp [get_set, h]

theorem mem_keys_iff (k : K) (l : List (K × V)) : k ∈ keys l ↔ ∃ v, get k l = some v := by
  induction l with
  | nil => simp [keys]
  | cons a l ih =>
    obtain ⟨a, w⟩ := a
    simp only [keys, List.map_cons, List.mem_cons, get_cons] at *
    by_cases h : a = k
    · simp [h]
    · simp [h, ih, Ne.symm h]

theorem has_iff (k : K) (l : List (K × V)) : has k l = true ↔ k ∈ keys l := by
  rw [mem_keys_iff, has, Option.isSome_iff_exists]

theorem has_eq_false_iff (k : K) (l : List (K × V)) : has k l = false ↔ k ∉ keys l := by
  rw [← has_iff]; simp

theorem get_eq_none_iff (k : K) (l : List (K × V)) : get k l = none ↔ k ∉ keys l := by
  rw [mem_keys_iff]
  cases get k l <;> simp

theorem get_mem {k : K} {v : V} {l : List (K × V)} (h : get k l = some v) : (k, v) ∈ l := by
  induction l with
  | nil => simp at h
  | cons a l ih =>
    obtain ⟨a, w⟩ := a
    rw [get_cons] at h
    split at h
    · simp_all
    · exact List.mem_cons_of_mem _ (ih h)

theorem get_of_mem {k : K} {v : V} {l : List (K × V)} (hn : (keys l).Nodup) (h : (k, v) ∈ l) :
    get k l = some v := by
  induction l with
  | nil => simp at h
  | cons a l ih =>
    obtain ⟨a, w⟩ := a
    simp only [keys, List.map_cons, List.nodup_cons] at hn
    rw [get_cons]
    rcases List.mem_cons.1 h with h | h
    · simp_all
    · have : k ∈ l.map Prod.fst := List.mem_map.2 ⟨_, h, rfl⟩
      have hne : a ≠ k := by rintro rfl; exact hn.1 this
      simp [hne]; exact ih hn.2 h

theorem set_of_not_mem {k : K} {l : List (K × V)} (h : k ∉ keys l) (v : V) :
    set k v l = l ++ [(k, v)] := by
  induction l with
  | nil => rfl
  | cons a l ih =>
    obtain ⟨a, w⟩ := a
    simp only [keys, List.map_cons, List.mem_cons, not_or] at h
    simp [set, Ne.symm h.1, ih h.2]

theorem keys_set (k : K) (v : V) (l : List (K × V)) :
    keys (set k v l) = if k ∈ keys l then keys l else keys l ++ [k] := by
  induction l with
  | nil => simp [set, keys]
  | cons a l ih =>
    obtain ⟨a, w⟩ := a
    simp only [set]
    by_cases h : a = k
    · subst h; simp [keys]
    · simp only [h, if_false]
      simp only [keys, List.map_cons, List.mem_cons] at *
      rw [ih]
      by_cases h' : k ∈ List.map Prod.fst l <;> simp [h', Ne.symm h]

theorem keys_set_of_mem {k : K} {l : List (K × V)} (h : k ∈ keys l) (v : V) :
    keys (set k v l) = keys l := by simp [keys_set, h]

theorem nodup_keys_set {k : K} {v : V} {l : List (K × V)} (h : (keys l).Nodup) :
    (keys (set k v l)).Nodup := by
  rw [keys_set]; split
  · exact h
  · rename_i hk
    rw [List.nodup_append]
    refine ⟨h, by simp, ?_⟩
    intro a ha b hb; simp at hb; subst hb; rintro rfl; exact hk ha

theorem mem_keys_set (k k' : K) (v : V) (l : List (K × V)) :
    k' ∈ keys (set k v l) ↔ k' = k ∨ k' ∈ keys l := by
  rw [keys_set]; split
  · constructor
    · exact Or.inr
    · rintro (rfl | h) <;> assumption
  · simp [or_comm]

theorem keys_del (k : K) (l : List (K × V)) : keys (del k l) = (keys l).erase k := by
  induction l with
  | nil => rfl
  | cons a l ih =>
    obtain ⟨a, w⟩ := a
    simp only [del, keys, List.map_cons] at *
    by_cases h : a = k
    · simp [h]
    · simp [h, ih, List.erase_cons_tail]

theorem nodup_keys_del {k : K} {l : List (K × V)} (h : (keys l).Nodup) : (keys (del k l)).Nodup := by
  rw [keys_del]; exact h.erase _

theorem del_of_not_mem {k : K} {l : List (K × V)} (h : k ∉ keys l) : del k l = l := by
  induction l with
  | nil => rfl
  | cons a l ih =>
    obtain ⟨a, w⟩ := a
    simp only [keys, List.map_cons, List.mem_cons, not_or] at h
    simp [del, Ne.symm h.1, ih h.2]

theorem get_del {l : List (K × V)} (hn : (keys l).Nodup) (k k' : K) :
    get k' (del k l) = if k = k' then none else get k' l := by
  induction l with
  | nil => simp [del]
  | cons a l ih =>
    obtain ⟨a, w⟩ := a
    simp only [keys, List.map_cons, List.nodup_cons] at hn
    simp only [del, get_cons]
    by_cases h : a = k
    · subst h
      simp only [if_true]
      by_cases h' : a = k'
      · subst h'
        simp only [if_true]
        exact (get_eq_none_iff _ _).2 hn.1
      · simp [h']
    · simp only [h, if_false, get_cons, ih hn.2]
      by_cases h' : a = k' <;> by_cases h'' : k = k' <;> simp_all

theorem del_set_of_not_mem {k : K} {l : List (K × V)} (h : k ∉ keys l) (v : V) :
    del k (set k v l) = l := by
  rw [set_of_not_mem h]
  induction l with
  | nil => simp [del]
  | cons a l ih =>
    obtain ⟨a, w⟩ := a
    simp only [keys, List.map_cons, List.mem_cons, not_or] at h
    simp [del, Ne.symm h.1, ih h.2]

theorem set_get_self {k : K} {v : V} {l : List (K × V)} (h : get k l = some v) : set k v l = l := by
  induction l with
  | nil => simp at h
  | cons a l ih =>
    obtain ⟨a, w⟩ := a
    rw [get_cons] at h
    by_cases h' : a = k
    · simp_all [set]
    · simp_all [set]

theorem set_set (k : K) (v w : V) (l : List (K × V)) : set k w (set k v l) = set k w l := by
  induction l with
  | nil => simp [set]
  | cons a l ih =>
    obtain ⟨a, u⟩ := a
    by_cases h' : a = k <;> simp_all [set]

/-- Two maps with unique keys and the same lookups have the same keys up to order. -/
theorem keys_perm_of_get {W : Type _} {l : List (K × V)} {m : List (K × W)} (hl : (keys l).Nodup)
    (hm : (keys m).Nodup) (h : ∀ k, (get k l).isSome = (get k m).isSome) : (keys l).Perm (keys m) := by
  rw [List.perm_ext_iff_of_nodup hl hm]
  intro k
  rw [mem_keys_iff, mem_keys_iff, ← Option.isSome_iff_exists, ← Option.isSome_iff_exists, h k]

end Verif.AL
