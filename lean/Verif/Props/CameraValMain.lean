import Verif.Model.CameraValMain
import Verif.Props.CameraReport

/-! Property C110: the camera validation program. -/

namespace Verif
namespace CamVal

open CamReport

/-- the images in which the target was found (specification). -/
def targets (fs : List Frame) : List Image := fs.filterMap Frame.found

/-- the files written (specification): one per image of the topic, named by its time stamp; it shows the image if the target was
found in it, otherwise what the previous file shows. -/
def savedFiles : Option Nat → List Frame → List (Int × Option Nat)
  | _, [] => []
  | prev, f :: fs =>
    let shown := match f.found with
      | some im => some im.id
      | none => prev
    (f.stamp, shown) :: savedFiles shown fs

theorem addImage_obs (isPos : Matrix (Fin 2) (Fin 2) ℝ → Bool) (v : Val) (im : Image) :
    (v.addImage isPos (some im)).1.obs = v.obs ++ [im] := by
  have h : ∀ (is : List Nat) (v : Val), (is.foldl (Val.corner isPos im) v).obs = v.obs := by
    intro is
    induction is with
    | nil => intro v; rfl
    | cons i is ih =>
      intro v
      rw [List.foldl_cons, ih]
      unfold Val.corner
      cases im.observed i with
      | none => rfl
      | some o => cases im.predicted i <;> rfl
  simp [Val.addImage, h]

theorem resultImage_add (isPos : Matrix (Fin 2) (Fin 2) ℝ → Bool) (v : Val) (o : Option Image) :
    resultImage (v.addImage isPos o).1 = match o with
      | some im => some im.id
      | none => resultImage v := by
  cases o with
  | none => rfl
  | some im => simp [resultImage, addImage_obs]

theorem loop_spec (env : Env) (vis save : Bool) (fs : List Frame) : ∀ (files : List (Int × Option Nat)) (v : Val) (out : _) (v' : Val),
    loop env vis save fs files v = .ok out v' →
    v' = (fs.map fun f => VOp.image f.found).foldl (VOp.run env.isPos) v ∧
    out = files ++ if vis && save then savedFiles (resultImage v) fs else [] := by
  induction fs with
  | nil =>
    intro files v out v' h
    simp only [loop, Res.ok.injEq] at h
    simp [h.1, h.2, savedFiles]
  | cons f fs ih =>
    intro files v out v' h
    simp only [loop, step] at h
    cases vis with
    | false =>
      simp only [Bool.false_eq_true, if_false, Res.bind] at h
      obtain ⟨h1, h2⟩ := ih _ _ _ _ h
      exact ⟨by simpa [VOp.run] using h1, by simpa using h2⟩
    | true =>
      cases save with
      | false =>
        simp only [if_true, Bool.false_eq_true, if_false, Res.bind] at h
        obtain ⟨h1, h2⟩ := ih _ _ _ _ h
        exact ⟨by simpa [VOp.run] using h1, by simpa using h2⟩
      | true =>
        simp only [if_true] at h
        cases hw : env.imwrite (resultImage (v.addImage env.isPos f.found).1) with
        | some ex => simp [hw, Res.bind] at h
        | none =>
          simp only [hw, Res.bind] at h
          obtain ⟨h1, h2⟩ := ih _ _ _ _ h
          refine ⟨by simpa [VOp.run] using h1, ?_⟩
          rw [h2, resultImage_add]
          simp only [Bool.and_self, if_true, List.append_assoc, List.singleton_append, savedFiles]

/-- **C110 (report).** When the program ends normally, the numbers it prints are the statistics of the reprojection errors of
all images of the topic in which the target was found, in order, and the files of errors and squared distances contain exactly
these errors, one line each. -/
theorem C110_report (env : Env) (hpos : ∀ c : Matrix (Fin 2) (Fin 2) ℝ, c.PosSemidef → env.isPos c = true)
    (vis save out : Bool) (q : ℝ) (size : Nat) (sigma2 : ℝ) (fs : List Frame) (files : List (Int × Option Nat)) (r : Report) (v : Val)
    (h : program env vis save out q size sigma2 fs = .ok (files, r) v) :
    let es := (targets fs).flatMap (imageErrors size)
    (es = [] → r.mean = none ∧ r.std = none) ∧
    (es ≠ [] → r.mean = some (fun i => Spec.mean (es.map fun e => e i)) ∧
      r.std = some (fun i => Real.sqrt (Spec.variance (es.map fun e => e i)))) ∧
    IsMaxAbs r.maxX (es.map fun e => e 0) ∧ IsMaxAbs r.maxY (es.map fun e => e 1) ∧
    (∃ bad : List ℝ, bad.Sublist (es.map fun e => (e 0 ^ 2 + e 1 ^ 2) / sigma2) ∧ r.outliers = bad.length ∧ (∀ x ∈ bad, q < x) ∧
      ∀ x ∈ es.map (fun e => (e 0 ^ 2 + e 1 ^ 2) / sigma2), q < x → x ∈ bad) ∧
    r.errorsFile = (if out then es else []) ∧
    r.md2File = (if out then es.map fun e => (e 0 ^ 2 + e 1 ^ 2) / sigma2 else []) := by
  unfold program at h
  cases hl : loop env vis save fs [] (Val.init size sigma2) with
  | throw ex s => simp [hl, Res.bind] at h
  | ub => simp [hl, Res.bind] at h
  | diverge => simp [hl, Res.bind] at h
  | ok out1 w =>
    simp only [hl, Res.bind, Res.ok.injEq, Prod.mk.injEq] at h
    obtain ⟨⟨-, hr⟩, rfl⟩ := h
    obtain ⟨hw, -⟩ := loop_spec env vis save fs _ _ _ _ hl
    have hd : detected (fs.map fun f => VOp.image f.found) = targets fs := by
      unfold detected targets
      rw [List.filterMap_map]; rfl
    obtain ⟨-, c2, c3, c4, -, -⟩ := C81_collected env.isPos size sigma2 _ w hw
    obtain ⟨-, -, -, d4, d5⟩ := C81_distances env.isPos size sigma2 _ w hw
    obtain ⟨s1, s2⟩ := C81_statistics env.isPos hpos size sigma2 _ w hw
    have d6 := d4 (by intro x hx; simp at hx)
    rw [hd] at c2
    obtain ⟨bad, b1, b2, b3, b4⟩ := d5 q
    rw [d6] at b1 b4
    rw [c2] at s1 s2 c3 c4 d6 b1 b4
    subst hr
    refine ⟨fun he => ⟨(s1 he).1, (s1 he).2.2⟩, fun he => ⟨(s2 he).1, (s2 he).2.2⟩, c3, c4, ⟨bad, b1, b2, b3, b4⟩, ?_, ?_⟩
    · simp only [c2]
    · simp only [d6]

/-- **C110 (saved images).** With visualisation and saving switched on, one file per image of the topic is written, named after
the image; otherwise none. -/
theorem C110_saved_images (env : Env) (vis save out : Bool) (q : ℝ) (size : Nat) (sigma2 : ℝ) (fs : List Frame)
    (files : List (Int × Option Nat)) (r : Report) (v : Val) (h : program env vis save out q size sigma2 fs = .ok (files, r) v) :
    (vis = true → save = true → files = savedFiles none fs ∧ files.map Prod.fst = fs.map Frame.stamp) ∧
    (vis = false ∨ save = false → files = []) := by
  unfold program at h
  cases hl : loop env vis save fs [] (Val.init size sigma2) with
  | throw ex s => simp [hl, Res.bind] at h
  | ub => simp [hl, Res.bind] at h
  | diverge => simp [hl, Res.bind] at h
  | ok out1 w =>
    simp only [hl, Res.bind, Res.ok.injEq, Prod.mk.injEq] at h
    obtain ⟨⟨hf, -⟩, -⟩ := h
    obtain ⟨-, h2⟩ := loop_spec env vis save fs _ _ _ _ hl
    rw [hf] at h2
    have hs : ∀ (fs : List Frame) (prev : Option Nat), (savedFiles prev fs).map Prod.fst = fs.map Frame.stamp := by
      intro fs
      induction fs with
      | nil => intro _; rfl
      | cons f fs ih => intro prev; simp [savedFiles, ih]
    constructor
    · rintro rfl rfl
      have : files = savedFiles none fs := by simpa [resultImage, Val.init] using h2
      exact ⟨this, by rw [this, hs]⟩
    · rintro (rfl | rfl) <;> simpa using h2

theorem savedFiles_own (fs : List Frame) : ∀ (prev : Option Nat), (∀ f ∈ fs, prev ≠ some f.id) → (fs.map Frame.id).Nodup →
    (∀ f ∈ fs, ∀ im, f.found = some im → im.id = f.id) → ∀ (i : Nat) (f : Frame), fs[i]? = some f →
    ((savedFiles prev fs)[i]? = some (f.stamp, some f.id) ↔ f.found.isSome = true) := by
  induction fs with
  | nil => intro _ _ _ _ i f h; simp at h
  | cons g gs ih =>
    intro prev hp hn hid i f hf
    simp only [List.map_cons, List.nodup_cons] at hn
    cases i with
    | zero =>
      simp only [List.getElem?_cons_zero, Option.some.injEq] at hf
      subst hf
      cases hg : g.found with
      | none => simp only [savedFiles, hg, List.getElem?_cons_zero, Option.some.injEq, Prod.mk.injEq, true_and, Option.isSome_none,
          Bool.false_eq_true, iff_false]; exact hp g List.mem_cons_self
      | some im => simp [savedFiles, hg, hid g List.mem_cons_self im hg]
    | succ i =>
      simp only [List.getElem?_cons_succ] at hf
      simp only [savedFiles, List.getElem?_cons_succ]
      refine ih _ ?_ hn.2 (fun f hf => hid f (List.mem_cons_of_mem _ hf)) i f hf
      intro f' hf'
      cases hg : g.found with
      | none => exact hp f' (List.mem_cons_of_mem _ hf')
      | some im =>
        simp only [ne_eq, Option.some.injEq, hid g List.mem_cons_self im hg]
        intro he
        exact hn.1 (he ▸ List.mem_map_of_mem hf')

/-- **C110 (saved images show what their name says), partial:** the file of an image shows that image exactly if the target was
found in it; all of them do only if it was found in every image. -/
theorem C110_own_image_partial (env : Env) (out : Bool) (q : ℝ) (size : Nat) (sigma2 : ℝ) (fs : List Frame)
    (files : List (Int × Option Nat)) (r : Report) (v : Val) (h : program env true true out q size sigma2 fs = .ok (files, r) v)
    (hn : (fs.map Frame.id).Nodup) (hid : ∀ f ∈ fs, ∀ im, f.found = some im → im.id = f.id) (i : Nat) (f : Frame)
    (hf : fs[i]? = some f) : files[i]? = some (f.stamp, some f.id) ↔ f.found.isSome = true := by
  rw [((C110_saved_images env true true out q size sigma2 fs files r v h).1 rfl rfl).1]
  exact savedFiles_own fs none (by simp) hn hid i f hf

/-- a program run always ends normally if no image fails to be written. -/
theorem program_ok (env : Env) (hw : ∀ o, env.imwrite o = none) (vis save out : Bool) (q : ℝ) (size : Nat) (sigma2 : ℝ)
    (fs : List Frame) : ∃ files r v, program env vis save out q size sigma2 fs = .ok (files, r) v := by
  have h : ∀ (fs : List Frame) (files : List (Int × Option Nat)) (v : Val), ∃ o v', loop env vis save fs files v = .ok o v' := by
    intro fs
    induction fs with
    | nil => intro files v; exact ⟨_, _, rfl⟩
    | cons f fs ih =>
      intro files v
      simp only [loop, step, hw]
      split
      · split <;> exact ih _ _
      · exact ih _ _
  obtain ⟨o, v', ho⟩ := h fs [] (Val.init size sigma2)
  exact ⟨_, _, _, by rw [program, ho]; rfl⟩

/-- image 1 and 3 without the target, image 2 with it. -/
def demoFrames : List Frame := [⟨1, 100, none⟩, ⟨2, 200, some ⟨2, fun _ => none, fun _ => none⟩⟩, ⟨3, 300, none⟩]

/-- **C110**, what is missing: an image without the target is saved all the same, as an empty image before the first detection,
which the library may refuse with an exception that ends the program, and as a copy of the last detection afterwards. -/
theorem C110_stale_images : (∃ (env : Env) (files : List (Int × Option Nat)) (r : Report) (v : Val),
      program env true true false 7 4 1 demoFrames = .ok (files, r) v ∧ files = [(100, none), (200, some 2), (300, some 2)]) ∧
    ∃ (env : Env) (v : Val), program env true true false 7 4 1 demoFrames = .throw .external v := by
  constructor
  · obtain ⟨files, r, v, h⟩ := program_ok ⟨fun _ => true, fun _ => none⟩ (fun _ => rfl) true true false 7 4 1 demoFrames
    refine ⟨_, files, r, v, h, ?_⟩
    rw [((C110_saved_images _ true true false 7 4 1 _ files r v h).1 rfl rfl).1]
    rfl
  · refine ⟨⟨fun _ => true, fun o => if o = none then some .external else none⟩, Val.init 4 1, ?_⟩
    simp [program, loop, step, demoFrames, Val.addImage, resultImage, Val.init, Res.bind]

/-- non-vacuity: the hypotheses of the theorems above. -/
example : (∃ files r v, program ⟨fun _ => true, fun _ => none⟩ true true true 7 4 1 demoFrames = .ok (files, r) v) ∧
    (demoFrames.map Frame.id).Nodup ∧ (∀ f ∈ demoFrames, ∀ im, f.found = some im → im.id = f.id) :=
  ⟨program_ok _ (fun _ => rfl) _ _ _ _ _ _ _, by decide, by simp [demoFrames]⟩

end CamVal
end Verif
