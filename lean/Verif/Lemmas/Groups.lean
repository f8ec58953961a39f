import Verif.Model.OptProblem
import Verif.Lemmas.AL
import Verif.Lemmas.Permute
import Mathlib.Data.List.Perm.Lattice

/-! Invariant linking the group table, the groups ordering and a membership function; used by both
the batch and the incremental problem. -/

namespace Verif

/-- Variables group after group. -/
def enumDV (groups : List (GroupId × List DVId)) (ordering : List GroupId) : List DVId :=
  ordering.flatMap fun g => (AL.get g groups).getD []

structure GInv (grp : DVId → Option GroupId) (groups : List (GroupId × List DVId))
    (ordering : List GroupId) : Prop where
  nodupG : (AL.keys groups).Nodup
  nodupO : ordering.Nodup
  ord : ∀ g, g ∈ ordering ↔ g ∈ AL.keys groups
  ne : ∀ g l, AL.get g groups = some l → l ≠ []
  nodupL : ∀ g l, AL.get g groups = some l → l.Nodup
  mem : ∀ g l, AL.get g groups = some l → ∀ d, d ∈ l ↔ grp d = some g
  has : ∀ d g, grp d = some g → g ∈ AL.keys groups

namespace GInv
variable {grp : DVId → Option GroupId} {groups : List (GroupId × List DVId)} {ordering : List GroupId}

theorem init : GInv (fun _ => none) [] [] where
  nodupG := by simp [AL.keys]
  nodupO := by simp
  ord := by simp [AL.keys]
  ne := by simp
  nodupL := by simp
  mem := by simp
  has := by simp

theorem mem_enum (h : GInv grp groups ordering) (d : DVId) :
    d ∈ enumDV groups ordering ↔ ∃ g, grp d = some g := by
  simp only [enumDV, List.mem_flatMap]
  constructor
  · rintro ⟨g, hg, hd⟩
    rw [h.ord, AL.mem_keys_iff] at hg
    obtain ⟨l, hl⟩ := hg
    rw [hl] at hd
    exact ⟨g, (h.mem g l hl d).1 hd⟩
  · rintro ⟨g, hg⟩
    have := h.has d g hg
    refine ⟨g, (h.ord g).2 this, ?_⟩
    obtain ⟨l, hl⟩ := (AL.mem_keys_iff _ _).1 this
    rw [hl]; exact (h.mem g l hl d).2 hg

theorem nodup_enum (h : GInv grp groups ordering) : (enumDV groups ordering).Nodup := by
  unfold enumDV
  rw [List.nodup_flatMap]
  refine ⟨?_, ?_⟩
  · intro g hg
    obtain ⟨l, hl⟩ := (AL.mem_keys_iff _ _).1 ((h.ord g).1 hg)
    rw [hl]; exact h.nodupL g l hl
  · refine h.nodupO.imp_of_mem ?_
    intro a b ha hb hab
    obtain ⟨l, hl⟩ := (AL.mem_keys_iff _ _).1 ((h.ord a).1 ha)
    obtain ⟨m, hm⟩ := (AL.mem_keys_iff _ _).1 ((h.ord b).1 hb)
    simp only [Function.onFun, hl, hm, Option.getD_some]
    intro d hd hd'
    rw [h.mem a l hl] at hd
    rw [h.mem b m hm, hd] at hd'
    exact hab (by injection hd')

/-- The enumeration goes group after group. -/
theorem enum_grouped (h : GInv grp groups ordering) :
    enumDV groups ordering =
      ordering.flatMap fun g => (enumDV groups ordering).filter fun d => decide (grp d = some g) := by
  have key : ∀ g ∈ ordering, (AL.get g groups).getD [] =
      (enumDV groups ordering).filter fun d => decide (grp d = some g) := by
    intro g hg
    obtain ⟨l, hl⟩ := (AL.mem_keys_iff _ _).1 ((h.ord g).1 hg)
    rw [hl]
    -- split the ordering around g
    obtain ⟨o1, o2, rfl⟩ := List.append_of_mem hg
    have hnd := h.nodupO
    have hoth : ∀ o : List GroupId, (∀ x ∈ o, x ∈ o1 ++ g :: o2) → g ∉ o →
        ((o.flatMap fun g => (AL.get g groups).getD []).filter fun d => decide (grp d = some g)) = [] := by
      intro o hsub hgo
      rw [List.filter_eq_nil_iff]
      intro d hd
      simp only [List.mem_flatMap] at hd
      obtain ⟨g', hg', hd'⟩ := hd
      obtain ⟨l', hl'⟩ := (AL.mem_keys_iff _ _).1 ((h.ord g').1 (hsub g' hg'))
      rw [hl'] at hd'
      have := (h.mem g' l' hl' d).1 hd'
      simp only [decide_eq_true_eq, this, Option.some.injEq]
      rintro rfl
      exact hgo hg'
    rw [List.nodup_append] at hnd
    have h1 : g ∉ o1 := fun hx => hnd.2.2 g hx g (by simp) rfl
    have h2 : g ∉ o2 := (List.nodup_cons.1 hnd.2.1).1
    simp only [enumDV, List.flatMap_append, List.flatMap_cons, List.filter_append]
    rw [hoth o1 (by intro x hx; simp [hx]) h1, hoth o2 (by intro x hx; simp [hx]) h2]
    simp only [hl, Option.getD_some, List.nil_append, List.append_nil]
    rw [List.filter_eq_self.2]
    intro d hd
    simpa using (h.mem g l hl d).1 hd
  conv_lhs => unfold enumDV
  have : ∀ o : List GroupId, (∀ g ∈ o, g ∈ ordering) → (o.flatMap fun g => (AL.get g groups).getD []) =
      o.flatMap fun g => (enumDV groups ordering).filter fun d => decide (grp d = some g) := by
    intro o ho
    induction o with
    | nil => rfl
    | cons a o ih =>
      rw [List.flatMap_cons, List.flatMap_cons, key a (ho a (by simp)), ih (fun g hg => ho g (by simp [hg]))]
  exact this ordering (fun g hg => hg)

theorem scan_elem (groups : List (GroupId × List DVId)) (idx : Nat) (ord : List GroupId) (run : Nat)
    (hpres : ∀ g ∈ ord, g ∈ AL.keys groups) (hrun : run ≤ idx)
    (hidx : idx - run < (enumDV groups ord).length) :
    ((scanGroups groups idx ord run).bind fun gi _ => groupElem groups gi)
      = .ok ((enumDV groups ord)[idx - run]) () := by
  induction ord generalizing run with
  | nil => simp [enumDV] at hidx
  | cons g gs ih =>
    obtain ⟨l, hl⟩ := (AL.mem_keys_iff _ _).1 (hpres g (by simp))
    have he : enumDV groups (g :: gs) = l ++ enumDV groups gs := by simp [enumDV, hl]
    rw [scanGroups, hl]
    simp only
    by_cases hlt : run + l.length > idx
    · simp only [hlt, if_true, Res.bind, groupElem, hl]
      have : idx - run < l.length := by omega
      rw [List.getElem?_eq_getElem this]
      simp only [he]
      rw [List.getElem_append_left this]
    · simp only [hlt, if_false]
      have hlen : idx - (run + l.length) < (enumDV groups gs).length := by
        rw [he, List.length_append] at hidx; omega
      rw [ih (run + l.length) (fun g hg => hpres g (by simp [hg])) (by omega) hlen]
      simp only [he]
      congr 1
      rw [List.getElem_append_right (by omega)]
      congr 1
      omega

/-- Reordering the groups preserves the invariant. -/
theorem reorder (h : GInv grp groups ordering) {o : List GroupId} (ho : o.Perm ordering) :
    GInv grp groups o :=
  { h with
    nodupO := ho.nodup_iff.2 h.nodupO
    ord := fun g => by rw [ho.mem_iff, h.ord] }

/-- Permuting inside one group preserves the invariant. -/
theorem permGroup (h : GInv grp groups ordering) {g : GroupId} {l l' : List DVId}
    (hl : AL.get g groups = some l) (hp : l'.Perm l) : GInv grp (AL.set g l' groups) ordering := by
  have hg : g ∈ AL.keys groups := (AL.mem_keys_iff _ _).2 ⟨l, hl⟩
  have hk : AL.keys (AL.set g l' groups) = AL.keys groups := AL.keys_set_of_mem hg _
  have cases : ∀ g' m, AL.get g' (AL.set g l' groups) = some m →
      ∃ m', AL.get g' groups = some m' ∧ m.Perm m' := by
    intro g' m hm
    rw [AL.get_set] at hm
    split at hm
    · rename_i e; subst e; injection hm with hm; subst hm; exact ⟨l, hl, hp⟩
    · exact ⟨m, hm, .refl _⟩
  refine ⟨by rw [hk]; exact h.nodupG, h.nodupO, by rw [hk]; exact h.ord, ?_, ?_, ?_, by rw [hk]; exact h.has⟩
  · intro g' m hm
    obtain ⟨m', h1, h2⟩ := cases g' m hm
    intro hnil; subst hnil
    exact h.ne g' m' h1 (List.nil_perm.1 h2)
  · intro g' m hm
    obtain ⟨m', h1, h2⟩ := cases g' m hm
    exact h2.nodup_iff.2 (h.nodupL g' m' h1)
  · intro g' m hm d
    obtain ⟨m', h1, h2⟩ := cases g' m hm
    rw [h2.mem_iff]; exact h.mem g' m' h1 d

/-- Inserting a new variable. -/
theorem insert (h : GInv grp groups ordering) {d : DVId} {g : GroupId} (hd : grp d = none)
    {o : List GroupId} (ho : o = if AL.has g groups then ordering else ordering ++ [g]) :
    GInv (fun d' => if d' = d then some g else grp d')
      (AL.set g ((AL.get g groups).getD [] ++ [d]) groups) o := by
  have hnotin : ∀ g' l, AL.get g' groups = some l → d ∉ l := by
    intro g' l hl hdl
    have := (h.mem g' l hl d).1 hdl
    rw [hd] at this; simp at this
  have horig : d ∉ (AL.get g groups).getD [] := by
    cases hg : AL.get g groups with
    | none => simp
    | some l => exact hnotin g l hg
  have hmemg : ∀ d', d' ∈ (AL.get g groups).getD [] ↔ grp d' = some g := by
    intro d'
    cases hg : AL.get g groups with
    | none =>
      simp only [Option.getD_none, List.not_mem_nil, false_iff]
      intro hh
      have := h.has d' g hh
      rw [AL.mem_keys_iff, hg] at this
      simp at this
    | some l => exact h.mem g l hg d'
  refine ⟨AL.nodup_keys_set h.nodupG, ?_, ?_, ?_, ?_, ?_, ?_⟩
  · subst ho
    split
    · exact h.nodupO
    · rename_i hg
      rw [List.nodup_append]
      refine ⟨h.nodupO, by simp, ?_⟩
      intro a ha b hb; simp at hb; subst hb; rintro rfl
      exact hg ((AL.has_iff _ _).2 ((h.ord a).1 ha))
  · intro g'
    subst ho
    rw [AL.mem_keys_set]
    split
    · rename_i hg
      rw [h.ord]
      constructor
      · exact Or.inr
      · rintro (rfl | h'); exacts [(AL.has_iff _ _).1 hg, h']
    · simp [h.ord, or_comm]
  · intro g' l hl
    rw [AL.get_set] at hl
    split at hl
    · injection hl with hl; subst hl; simp
    · exact h.ne g' l hl
  · intro g' l hl
    rw [AL.get_set] at hl
    split at hl
    · injection hl with hl; subst hl
      rw [List.nodup_append]
      refine ⟨?_, by simp, ?_⟩
      · cases hg : AL.get g groups with
        | none => simp
        | some l => exact h.nodupL g l hg
      · intro a ha b hb; simp at hb; subst hb; rintro rfl; exact horig ha
    · exact h.nodupL g' l hl
  · intro g' l hl d'
    rw [AL.get_set] at hl
    split at hl
    · rename_i e; subst e
      injection hl with hl; subst hl
      simp only [List.mem_append, List.mem_singleton, hmemg]
      by_cases hdd : d' = d
      · simp [hdd]
      · simp [hdd]
    · rename_i hne
      rw [h.mem g' l hl]
      by_cases hdd : d' = d
      · subst hdd; simp [hd, hne]
      · simp [hdd]
  · intro d' g' hh
    rw [AL.mem_keys_set]
    by_cases hdd : d' = d
    · subst hdd; simp at hh; exact Or.inl hh.symm
    · simp [hdd] at hh; exact Or.inr (h.has d' g' hh)

end GInv

/-- A list of keys with the same membership as the enumeration is a permutation of it. -/
theorem GInv.enum_perm {W : Type _} {grp : DVId → Option GroupId} {groups : List (GroupId × List DVId)}
    {ordering : List GroupId} (h : GInv grp groups ordering) {m : List (DVId × W)} (hm : (AL.keys m).Nodup)
    (heq : ∀ d, d ∈ AL.keys m ↔ ∃ g, grp d = some g) : (enumDV groups ordering).Perm (AL.keys m) := by
  rw [List.perm_ext_iff_of_nodup h.nodup_enum hm]
  intro d
  rw [h.mem_enum, heq]

theorem checkOrdering_iff {V : Type _} (p : OptProblem V) (seen o : List GroupId) :
    p.checkOrdering seen o = true ↔ (∀ g ∈ o, g ∈ AL.keys p.groups) ∧ o.Nodup ∧ ∀ g ∈ o, g ∉ seen := by
  induction o generalizing seen with
  | nil => simp [OptProblem.checkOrdering]
  | cons g o ih =>
    rw [OptProblem.checkOrdering]
    by_cases h1 : g ∈ AL.keys p.groups
    · have h1' : p.isGroupInProblem g = true := (AL.has_iff _ _).2 h1
      by_cases h2 : g ∈ seen
      · simp [h1', h2]
      · have h2' : seen.contains g = false := by simpa using h2
        rw [h1', h2']
        simp only [Bool.not_true, Bool.false_eq_true, if_false, ih,
          List.mem_cons, not_or, List.nodup_cons]
        constructor
        · rintro ⟨a, b, c⟩
          refine ⟨?_, ⟨?_, b⟩, ?_⟩
          · rintro x (rfl | hx); exacts [h1, a x hx]
          · intro hgo; exact (c g hgo).1 rfl
          · rintro x (rfl | hx); exacts [h2, (c x hx).2]
        · rintro ⟨a, ⟨b, b'⟩, c⟩
          refine ⟨fun x hx => a x (Or.inr hx), b', fun x hx => ⟨?_, c x (Or.inr hx)⟩⟩
          rintro rfl; exact b hx
    · have h1' : p.isGroupInProblem g = false := (AL.has_eq_false_iff _ _).2 h1
      simp [h1', h1]

/-- Same length, no duplicates, contained: a permutation. -/
theorem perm_of_check {o ord : List GroupId} (hnd : ord.Nodup) (hlen : o.length = ord.length) :
    (o.Nodup ∧ ∀ g ∈ o, g ∈ ord) ↔ o.Perm ord := by
  constructor
  · rintro ⟨h1, h2⟩
    exact (List.subperm_of_subset h1 h2).perm_of_length_le (by omega)
  · intro h; exact ⟨h.nodup_iff.2 hnd, fun g hg => h.mem_iff.1 hg⟩

end Verif
