import Verif.Model.Vision
import Verif.Lemmas.AL
import Mathlib.Tactic.Linarith

/-! Properties C38 (frame bookkeeping), C62 (stored matches), C63 (key frame decision) and C64 (thresholds). -/

namespace Verif
namespace Vision

/-- The histories of public calls that return; `seen` are the multi frames completed by the image pipeline so far, which
never completes the same object twice. -/
inductive Reach (d : ℚ) (t : Int) : State → List FramePtr → Prop where
  | init : Reach d t (init d t) []
  | step {s s' : State} {seen : List FramePtr} (op : Op) : Reach d t s seen → (∀ f, op.frame? = some f → f ∉ seen) →
      step s op = .ok () s' → Reach d t s' (seen ++ op.frame?.toList)

/-- the order statistic of rank `k` (specification): at most `k` values are smaller, more than `k` are not larger. -/
def OrderStat (l : List ℚ) (k : Nat) (x : ℚ) : Prop :=
  x ∈ l ∧ (l.filter fun y => y < x).length ≤ k ∧ k < (l.filter fun y => y ≤ x).length

structure Inv (s : State) (seen : List FramePtr) : Prop where
  ids_eq : s.issued.map Prod.fst = List.range s.next
  issued_ids : ∀ q ∈ s.issued, s.ids q.2 = some q.1
  ids_issued : ∀ f i, s.ids f = some i → (i, f) ∈ s.issued
  issued_seen : ∀ q ∈ s.issued, q.2 ∈ seen
  prev_seen : ∀ f, s.prev = some f → f ∈ seen
  frames_issued : ∀ i f, AL.get i s.frames = some f → (i, f) ∈ s.issued
  prev_stored : ∀ f i, s.prev = some f → s.ids f = some i → AL.get i s.frames = some f
  found_b : ∀ m ∈ s.found, ∃ i f, m.frameB = some i ∧ AL.get i s.frames = some f
  found_a : ∀ m ∈ s.found, m.frameA = none ∨ ∃ i f, m.frameA = some i ∧ AL.get i s.frames = some f

theorem inv_step {s s' : State} {seen : List FramePtr} (hi : Inv s seen) (op : Op)
    (hf : ∀ f, op.frame? = some f → f ∉ seen) (h : step s op = .ok () s') : Inv s' (seen ++ op.frame?.toList) := by
  have mono : ∀ f, f ∈ seen → f ∈ seen ++ op.frame?.toList := fun f h => by simp [h]
  cases op with
  | reset =>
    simp only [step, Res.ok.injEq, true_and] at h
    subst h
    exact ⟨hi.ids_eq, hi.issued_ids, hi.ids_issued, fun q hq => mono _ (hi.issued_seen q hq), by simp [reset],
      by simp [reset, AL.get], by simp [reset], by simp [reset], by simp [reset]⟩
  | add im =>
    simp only [step, Op.frame?] at h hf mono ⊢
    -- the previous frame is replaced by a new, unnumbered one
    have recover : ∀ f, im.frame = some f → Inv { s with prev := some f } (seen ++ im.frame.toList) := by
      intro f he
      have hfs := hf f he
      refine ⟨hi.ids_eq, hi.issued_ids, hi.ids_issued, fun q hq => mono _ (hi.issued_seen q hq), ?_, hi.frames_issued, ?_,
        hi.found_b, hi.found_a⟩
      · rintro g hg; simp only [Option.some.injEq] at hg; subst hg; simp [he]
      · rintro g i hg hid
        simp only [Option.some.injEq] at hg; subst hg
        exact absurd (hi.issued_seen _ (hi.ids_issued _ _ hid)) hfs
    have same : Inv s (seen ++ im.frame.toList) :=
      ⟨hi.ids_eq, hi.issued_ids, hi.ids_issued, fun q hq => mono _ (hi.issued_seen q hq), fun f h => mono _ (hi.prev_seen f h),
        hi.frames_issued, hi.prev_stored, hi.found_b, hi.found_a⟩
    cases he : im.frame with
    | none =>
      simp only [addImage, he] at h
      cases h
      rw [← he]; exact same
    | some f =>
      have hfs := hf f he
      cases hp : s.prev with
      | none =>
        simp only [addImage, he, hp] at h
        cases h
        have hrec := recover f he; rw [he] at hrec; exact hrec
      | some p =>
        simp only [addImage, he, hp] at h
        split_ifs at h with h1
        · split at h
          · cases h
          · rename_i median hk
            split_ifs at h with h2
            · simp only [Res.ok.injEq, true_and] at h
              subst h
              have hnew : ∀ q ∈ s.issued, q.2 ≠ f := fun q hq e => hfs (e ▸ hi.issued_seen q hq)
              have hlt : ∀ q ∈ s.issued, q.1 < s.next := by
                intro q hq
                have : q.1 ∈ s.issued.map Prod.fst := List.mem_map_of_mem hq
                rw [hi.ids_eq] at this; exact List.mem_range.1 this
              have hkeep : ∀ i g, AL.get i s.frames = some g → AL.get i (AL.set s.next f s.frames) = some g := by
                intro i g hg
                rw [AL.get_set_ne]; exact hg
                have := hlt _ (hi.frames_issued i g hg); simp only at this; omega
              refine ⟨?_, ?_, ?_, ?_, ?_, ?_, ?_, ?_, ?_⟩
              · simp [hi.ids_eq, List.range_succ]
              · intro q hq
                simp only [List.mem_append, List.mem_singleton] at hq
                rcases hq with hq | rfl
                · simp only [if_neg (hnew q hq)]; exact hi.issued_ids q hq
                · simp
              · intro g i hg
                simp only at hg
                split_ifs at hg with hgf
                · simp only [Option.some.injEq] at hg; subst hg; subst hgf; simp
                · simp [hi.ids_issued g i hg]
              · intro q hq
                simp only [List.mem_append, List.mem_singleton] at hq
                rcases hq with hq | rfl
                · simp [hi.issued_seen q hq]
                · simp
              · intro g hg; simp only [Option.some.injEq] at hg; subst hg; simp
              · intro i g hg
                simp only [AL.get_set] at hg
                split_ifs at hg with hin
                · simp only [Option.some.injEq] at hg; subst hg; subst hin; simp
                · simp [hi.frames_issued i g hg]
              · intro g i hg hid
                simp only [Option.some.injEq] at hg; subst hg
                simp only [if_true, Option.some.injEq] at hid; subst hid
                simp
              · intro m hm
                simp only [List.mem_append] at hm
                rcases hm with (hm | hm) | hm
                · obtain ⟨i, g, h3, h4⟩ := hi.found_b m hm
                  exact ⟨i, g, h3, hkeep i g h4⟩
                · simp only [trackAll, List.mem_map, List.mem_flatMap] at hm
                  obtain ⟨x, ⟨c, _, q, _, rfl⟩, rfl⟩ := hm
                  exact ⟨s.next, f, rfl, by simp⟩
                · simp only [ofovMatches, List.mem_map, List.mem_flatMap] at hm
                  obtain ⟨c, _, c2, _, q, _, rfl⟩ := hm
                  exact ⟨s.next, f, rfl, by simp⟩
              · intro m hm
                simp only [List.mem_append] at hm
                rcases hm with (hm | hm) | hm
                · rcases hi.found_a m hm with h3 | ⟨i, g, h3, h4⟩
                  · exact Or.inl h3
                  · exact Or.inr ⟨i, g, h3, hkeep i g h4⟩
                · simp only [trackAll, List.mem_map, List.mem_flatMap] at hm
                  obtain ⟨x, ⟨c, _, q, _, rfl⟩, rfl⟩ := hm
                  cases hid : s.ids p with
                  | none => exact Or.inl (by simp [hid])
                  | some i => exact Or.inr ⟨i, p, by simpa using hid, hkeep i p (hi.prev_stored p i hp hid)⟩
                · simp only [ofovMatches, List.mem_map, List.mem_flatMap] at hm
                  obtain ⟨c, _, c2, _, q, _, rfl⟩ := hm
                  exact Or.inr ⟨s.next, f, rfl, by simp⟩
            · cases h
              rw [← he]; exact same
        · cases h
          have hrec := recover f he; rw [he] at hrec; exact hrec

theorem inv_reach {d : ℚ} {t : Int} {s : State} {seen : List FramePtr} (h : Reach d t s seen) : Inv s seen := by
  induction h with
  | init => exact ⟨rfl, by simp [init], by simp [init], by simp [init], by simp [init], by simp [init, AL.get],
      by simp [init], by simp [init], by simp [init]⟩
  | step op _ hf hs ih => exact inv_step ih op hf hs

/-- **C38**: over every history, resets included, the identifiers handed out are 0, 1, 2, ... in this order, so they are
strictly increasing and never reused. -/
theorem C38_ids_consecutive {d : ℚ} {t : Int} {s : State} {seen : List FramePtr} (h : Reach d t s seen) :
    s.issued.map Prod.fst = List.range s.issued.length := by
  have := (inv_reach h).ids_eq
  have hl : s.issued.length = s.next := by simpa using congrArg List.length this
  rw [this, hl]

/-- **C38**: a call never takes back or changes an identifier handed out before. -/
theorem C38_ids_kept {s s' : State} (op : Op) (h : step s op = .ok () s') : s.issued <+: s'.issued := by
  cases op with
  | reset => simp only [step, Res.ok.injEq, true_and] at h; subst h; exact List.prefix_refl _
  | add im =>
    simp only [step, addImage] at h
    split at h
    · split_ifs at h with h1
      · split at h
        · cases h
        · split_ifs at h with h2
          · simp only [Res.ok.injEq, true_and] at h; subst h; exact List.prefix_append _ _
          · cases h; exact List.prefix_refl _
      · cases h; exact List.prefix_refl _
    · cases h; exact List.prefix_refl _
    · cases h; exact List.prefix_refl _

/-- **C38**: every stored frame carries the identifier under which it is stored, and got it from this object. -/
theorem C38_stored_under_own_id {d : ℚ} {t : Int} {s : State} {seen : List FramePtr} (h : Reach d t s seen) (i : Nat)
    (f : FramePtr) (hf : AL.get i s.frames = some f) : s.ids f = some i ∧ (i, f) ∈ s.issued := by
  have hi := inv_reach h
  exact ⟨hi.issued_ids _ (hi.frames_issued i f hf), hi.frames_issued i f hf⟩

/-- **C62** (partial): every stored match refers on its second side to a stored frame; on its first side to a stored frame or
to a frame that never got an identifier.  Missing: that the first frame is always stored, see `C62_match_without_frame`. -/
theorem C62_matches_partial {d : ℚ} {t : Int} {s : State} {seen : List FramePtr} (h : Reach d t s seen) (m : Match)
    (hm : m ∈ s.found) :
    (∃ i f, m.frameB = some i ∧ AL.get i s.frames = some f) ∧
    (m.frameA = none ∨ ∃ i f, m.frameA = some i ∧ AL.get i s.frames = some f) :=
  ⟨(inv_reach h).found_b m hm, (inv_reach h).found_a m hm⟩

/-- the two kinds of matches (specification): between an earlier frame (or one without identifier) and a later one, seen by
the same camera; or between two different cameras of one frame, the lower numbered camera first. -/
def WellFormed (m : Match) : Prop :=
  (m.camA = m.camB ∧ ∃ j, m.frameB = some j ∧ (m.frameA = none ∨ ∃ i, m.frameA = some i ∧ i < j)) ∨
  (m.camA < m.camB ∧ m.frameA = m.frameB)

/-- **C62** (shape): over every history, every stored match is either a track of one camera from an earlier to a later frame
or a stereo match between two different cameras of one frame. -/
theorem C62_match_shape {d : ℚ} {t : Int} {s : State} {seen : List FramePtr} (h : Reach d t s seen) :
    ∀ m ∈ s.found, WellFormed m := by
  induction h with
  | init => simp [init]
  | @step s s' seen op hr hf hs ih =>
    have hi := inv_reach hr
    cases op with
    | reset =>
      simp only [step, Res.ok.injEq, true_and] at hs
      subst hs; simp [reset]
    | add im =>
      simp only [step, addImage] at hs
      split at hs
      · rename_i f p _ hp
        split_ifs at hs with h1
        · split at hs
          · cases hs
          · split_ifs at hs with h2
            · simp only [Res.ok.injEq, true_and] at hs
              subst hs
              intro m hm
              simp only [List.mem_append] at hm
              rcases hm with (hm | hm) | hm
              · exact ih m hm
              · simp only [trackAll, List.mem_map, List.mem_flatMap] at hm
                obtain ⟨x, ⟨c, _, q, _, rfl⟩, rfl⟩ := hm
                refine Or.inl ⟨rfl, s.next, rfl, ?_⟩
                cases hid : s.ids p with
                | none => exact Or.inl rfl
                | some i =>
                  refine Or.inr ⟨i, rfl, ?_⟩
                  have : i ∈ s.issued.map Prod.fst := List.mem_map.2 ⟨(i, p), hi.ids_issued p i hid, rfl⟩
                  rw [hi.ids_eq] at this
                  exact List.mem_range.1 this
              · simp only [ofovMatches, List.mem_map, List.mem_flatMap] at hm
                obtain ⟨c, _, c2, hc2, q, _, rfl⟩ := hm
                refine Or.inr ⟨?_, rfl⟩
                rw [List.mem_drop_iff_getElem] at hc2
                obtain ⟨k, hk, rfl⟩ := hc2
                simp only [List.getElem_range]; omega
            · cases hs; exact ih
        · cases hs; exact ih
      · cases hs; exact ih
      · cases hs; exact ih

/-- **C62** (completeness): a key frame adds, for every camera pair `i < j` of the frame, every match of the pair. -/
theorem C62_stereo_complete (fid : Option Nat) (im : Img) (i j : Nat) (hij : i < j) (hj : j < im.cams) (q : Nat × Nat)
    (hq : q ∈ im.overlap i j) : (⟨fid, i, q.1, fid, j, q.2⟩ : Match) ∈ ofovMatches fid im := by
  simp only [ofovMatches, List.mem_map, List.mem_flatMap]
  refine ⟨i, List.mem_range.2 (by omega), j, ?_, q, hq, rfl⟩
  rw [List.mem_drop_iff_getElem]
  exact ⟨j - (i + 1), by simp; omega, by simp; omega⟩

/-- an image completing frame `f` with one camera and one track of the given disparity. -/
def demoImg (f : FramePtr) (disp : ℚ) : Img := ⟨some f, 1, fun _ _ => [(0, 0, disp)], fun _ _ => []⟩

/-- two images, from the start. -/
def demoRun (d : ℚ) (t : Int) : Res State Unit :=
  (step (init d t) (.add (demoImg 10 0))).bind fun _ s => step s (.add (demoImg 11 5))

/-- **C62** (negation): already the first matches stored refer to a frame without identifier that is not stored. -/
theorem C62_match_without_frame : ∃ s, Reach 1 0 s [10, 11] ∧ s.found = [⟨none, 0, 0, some 0, 0, 0⟩] ∧
    s.frames = [(0, 11)] := by
  refine ⟨⟨1, some 11, [(0, 11)], [⟨none, 0, 0, some 0, 0, 0⟩], fun q => if q = 11 then some 0 else none, 1, 0, [(0, 11)]⟩,
    ?_, rfl, rfl⟩
  have h0 : Reach 1 0 (init 1 0) [] := .init
  have h1 := Reach.step (.add (demoImg 10 0)) h0 (s' := { init 1 0 with prev := some 10 }) (by simp) rfl
  exact Reach.step (.add (demoImg 11 5)) h1 (by simp [Op.frame?, demoImg]) rfl

theorem orderStat_kth {l : List ℚ} {k : Nat} {x : ℚ} (h : kthSmallest l k = some x) : OrderStat l k x := by
  unfold kthSmallest at h
  have hperm := List.perm_insertionSort (· ≤ ·) l
  have hsort := List.pairwise_insertionSort (· ≤ · : ℚ → ℚ → Prop) l
  set m := l.insertionSort (· ≤ ·) with hm
  obtain ⟨hk, hx⟩ := List.getElem?_eq_some_iff.1 h
  have split : m = m.take k ++ x :: m.drop (k + 1) := by
    rw [← hx, List.getElem_cons_drop, List.take_append_drop]
  rw [split, List.pairwise_append] at hsort
  have hle : ∀ y ∈ m.take k, y ≤ x := fun y hy => hsort.2.2 y hy x (by simp)
  have hge : ∀ y ∈ m.drop (k + 1), x ≤ y := (List.pairwise_cons.1 hsort.2.1).1
  refine ⟨hperm.mem_iff.1 (by rw [split]; simp), ?_, ?_⟩
  · rw [← (hperm.filter _).length_eq, split, List.filter_append, List.length_append]
    have h2 : (x :: m.drop (k + 1)).filter (fun y => decide (y < x)) = [] := by
      rw [List.filter_eq_nil_iff]
      intro y hy
      simp only [List.mem_cons] at hy
      rcases hy with rfl | hy
      · simp
      · simpa using hge y hy
    rw [h2]
    have := List.length_filter_le (fun y => decide (y < x)) (m.take k)
    have h3 : (m.take k).length ≤ k := List.length_take_le _ _
    simp only [List.length_nil]; omega
  · rw [← (hperm.filter _).length_eq, split, List.filter_append, List.length_append]
    have h2 : (m.take k).filter (fun y => decide (y ≤ x)) = m.take k := by
      rw [List.filter_eq_self]; intro y hy; simpa using hle y hy
    rw [h2]
    have h3 : (m.take k).length = k := List.length_take_of_le (le_of_lt hk)
    have h4 : 1 ≤ ((x :: m.drop (k + 1)).filter (fun y => decide (y ≤ x))).length := by simp
    omega

/-- the order statistic is unique. -/
theorem OrderStat.unique {l : List ℚ} {k : Nat} {x y : ℚ} (hx : OrderStat l k x) (hy : OrderStat l k y) : x = y := by
  by_contra hne
  rcases lt_or_gt_of_ne hne with h | h
  · have h1 := hx.2.2
    have h2 := hy.2.1
    have : (l.filter fun z => z ≤ x).length ≤ (l.filter fun z => z < y).length :=
      (List.monotone_filter_right l (fun z hz => by simp at hz ⊢; linarith)).length_le
    omega
  · have h1 := hy.2.2
    have h2 := hx.2.1
    have : (l.filter fun z => z ≤ y).length ≤ (l.filter fun z => z < x).length :=
      (List.monotone_filter_right l (fun z hz => by simp at hz ⊢; linarith)).length_le
    omega

/-- **C63**: with a previous frame and a completed frame, a returning call makes the frame a key frame (hands out an
identifier, stores it and its matches) exactly if there are more tracks than the threshold and their (upper) median
disparity exceeds the disparity threshold; the new frame becomes the reference for the next one exactly if it is a key frame
or there were too few tracks; otherwise nothing changes. -/
theorem C63_key_frame_decision {s s' : State} {im : Img} {f p : FramePtr} (hf : im.frame = some f) (hp : s.prev = some p)
    (h : addImage s im = .ok () s') :
    let disp := (trackAll s p im).map Prod.snd
    let enough := (disp.length : Int) > s.tracksThreshold
    let moved := ∃ x, OrderStat disp (disp.length / 2) x ∧ x > s.disparityThreshold
    (enough → moved → s'.issued = s.issued ++ [(s.next, f)] ∧ AL.get s.next s'.frames = some f ∧ s'.prev = some f ∧
      s'.found = s.found ++ (trackAll s p im).map Prod.fst ++ ofovMatches (some s.next) im) ∧
    (enough → ¬ moved → s' = s) ∧
    (¬ enough → s' = { s with prev := some f }) := by
  intro disp enough moved
  have hlen : (trackAll s p im).length = disp.length := by simp [disp]
  simp only [addImage, hf, hp] at h
  refine ⟨fun he hm => ?_, fun he hm => ?_, fun he => ?_⟩
  · rw [if_pos (by rw [hlen]; exact he)] at h
    split at h
    · cases h
    · rename_i x hk
      have hs := orderStat_kth hk
      rw [hlen] at hs
      obtain ⟨y, hy, hgt⟩ := hm
      obtain rfl := OrderStat.unique hy hs
      rw [if_pos hgt] at h
      simp only [Res.ok.injEq, true_and] at h
      subst h
      exact ⟨rfl, by simp, rfl, rfl⟩
  · rw [if_pos (by rw [hlen]; exact he)] at h
    split at h
    · cases h
    · rename_i x hk
      have hs := orderStat_kth hk
      rw [hlen] at hs
      rw [if_neg (fun hgt => hm ⟨x, hs, hgt⟩)] at h
      cases h; rfl
  · rw [if_neg (by rw [hlen]; exact he)] at h
    cases h; rfl

/-- a stereo frame: two cameras, one overlap match. -/
example : ofovMatches (some 3) ⟨some 1, 2, fun _ _ => [], fun _ _ => [(4, 5)]⟩ = [⟨some 3, 0, 4, some 3, 1, 5⟩] := by decide

/-- concrete instance of the decision: three tracks with disparities 1, 9, 4 and thresholds 2 and 3. -/
example : (kthSmallest [1, 9, 4] (3 / 2)) = some 4 := by decide +kernel

/-- **C64** (negation): the same images give a key frame or none depending on what the memory held before construction. -/
theorem C64_depends_on_memory : ∃ s1 s2, demoRun 1 0 = .ok () s1 ∧ demoRun 9 0 = .ok () s2 ∧
    s1.frames = [(0, 11)] ∧ s2.frames = [] := ⟨_, _, rfl, rfl, rfl, rfl⟩

/-- **C64** (negation): if the uninitialised track threshold happens to be negative, a frame without any track is undefined
behaviour (the median of an empty list). -/
theorem C64_negative_memory_undefined (s : State) (im : Img) (f p : FramePtr) (hf : im.frame = some f)
    (hp : s.prev = some p) (ht : s.tracksThreshold < 0) (h0 : ∀ i, im.tracked p i = []) : addImage s im = .ub := by
  have : trackAll s p im = [] := by simp [trackAll, h0]
  simp only [addImage, hf, hp, this]
  rw [if_pos (by simpa using ht)]
  rfl

/-- **C64** (partial): with a non-negative track threshold every call returns normally. -/
theorem C64_defined_partial (s : State) (op : Op) (ht : 0 ≤ s.tracksThreshold) : ∃ s', step s op = .ok () s' := by
  cases op with
  | reset => exact ⟨_, rfl⟩
  | add im =>
    simp only [step, addImage]
    split
    · rename_i f p _ _
      split_ifs with h1
      · have hl : (trackAll s p im).length / 2 < (((trackAll s p im).map Prod.snd).insertionSort (· ≤ ·)).length := by
          rw [List.length_insertionSort, List.length_map]; omega
        have : kthSmallest ((trackAll s p im).map Prod.snd) ((trackAll s p im).length / 2) = some _ :=
          List.getElem?_eq_getElem hl
        rw [this]
        simp only
        split_ifs
        · exact ⟨_, rfl⟩
        · exact ⟨_, rfl⟩
      · exact ⟨_, rfl⟩
    · exact ⟨_, rfl⟩
    · exact ⟨_, rfl⟩

end Vision
end Verif
