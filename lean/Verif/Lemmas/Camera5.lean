import Verif.Lemmas.Camera4

/-! Attributes of the objects a camera calibrator makes. -/

namespace Verif
namespace Camera
variable {V F M : Type _}

open Cam

/-- `P` holds of the state left behind, whether the call returned or threw. -/
def Pres {σ α : Type _} (P : σ → Prop) (r : Res σ α) : Prop := ∀ ok s', r.outcome = some (ok, s') → P s'

theorem Pres.bind {σ α β : Type _} {P : σ → Prop} {r : Res σ α} {f : α → σ → Res σ β} (h : Pres P r)
    (hf : ∀ a s, r = .ok a s → P s → Pres P (f a s)) : Pres P (r.bind f) := by
  intro ok s' ho
  rcases outcome_bind ho with ⟨a, s, h1, h2⟩ | ⟨e, h1, -⟩
  · exact hf a s h1 (h true s (by rw [h1]; rfl)) ok s' h2
  · exact h false s' (by rw [h1]; rfl)

theorem Pres.ok {σ α : Type _} {P : σ → Prop} {a : α} {s : σ} (h : P s) : Pres P (.ok a s) := by
  intro ok s' ho
  simp only [Res.outcome, Option.some.injEq, Prod.mk.injEq] at ho
  rw [← ho.2]; exact h

theorem Pres.throw {σ α : Type _} {P : σ → Prop} {e : Exc} {s : σ} (h : P s) : Pres P (.throw e s : Res σ α) := by
  intro ok s' ho
  simp only [Res.outcome, Option.some.injEq, Prod.mk.injEq] at ho
  rw [← ho.2]; exact h

/-- the variables of an image were made by the calibrator. -/
def Entry.Made (nd0 nd : Nat) (e : Entry V) : Prop := nd0 ≤ e.qdv ∧ e.qdv < nd ∧ nd0 ≤ e.tdv ∧ e.tdv < nd

/-- attributes of everything made since construction. -/
structure Attr (S : Setup V F M) (s : Cam V F M) : Prop where
  nd : S.nd ≤ s.nd
  old : ∀ d, d < S.nd → s.w.heap.active d = S.heap.active d ∧ s.w.heap.minDim d = S.heap.minDim d
  new : ∀ d, S.nd ≤ d → d < s.nd → s.w.heap.active d = true ∧ s.w.heap.minDim d = 3
  et : ∀ b, ∀ e ∈ (s.w.B b).errorTerms, e < s.ne ∧ s.w.heap.etDim e = 2
  pend : ∀ e ∈ s.batchObs, e.Made S.nd s.nd
  subs : ∀ x ∈ s.subs, ∀ e ∈ x.images, e.Made S.nd s.nd

theorem Attr.start (S : Setup V F M) : Attr S S.start where
  nd := Nat.le_refl _
  old := fun _ _ => ⟨rfl, rfl⟩
  new := fun d h1 h2 => absurd h2 (Nat.not_lt.2 h1)
  et := fun b e he => by simp [Setup.start, Camera.init, OptProblem.empty] at he
  pend := fun e he => by simp [Setup.start, Camera.init] at he
  subs := fun x hx => by simp [Setup.start, Camera.init] at hx

theorem Entry.Made.mono {nd0 nd nd' : Nat} {e : Entry V} (h : e.Made nd0 nd) (hle : nd ≤ nd') : e.Made nd0 nd' :=
  ⟨h.1, Nat.lt_of_lt_of_le h.2.1 hle, h.2.2.1, Nat.lt_of_lt_of_le h.2.2.2 hle⟩

theorem Attr.setB {S : Setup V F M} {s : Cam V F M} (h : Attr S s) (b : BatchId) (p : OptProblem V)
    (hp : ∀ e ∈ p.errorTerms, e < s.ne ∧ s.w.heap.etDim e = 2) : Attr S (s.setB b p) :=
  { h with
    et := fun b' e he => by
      simp only [Cam.setB] at he
      split at he
      · exact hp e he
      · exact h.et b' e he }

theorem Attr.allocDV {S : Setup V F M} {s : Cam V F M} (h : Attr S s) (v : V) : Attr S (s.allocDV v) where
  nd := Nat.le_succ_of_le h.nd
  old := fun d hd => by
    have : d ≠ s.nd := Nat.ne_of_lt (Nat.lt_of_lt_of_le hd h.nd)
    simp only [Cam.allocDV, if_neg this]
    exact h.old d hd
  new := fun d h1 h2 => by
    simp only [Cam.allocDV] at h2 ⊢
    by_cases e : d = s.nd
    · simp [e]
    · simp only [if_neg e]
      exact h.new d h1 (Nat.lt_of_le_of_ne (Nat.le_of_lt_succ h2) e)
  et := h.et
  pend := fun e he => (h.pend e he).mono (Nat.le_succ _)
  subs := fun x hx e he => (h.subs x hx e he).mono (Nat.le_succ _)

theorem Attr.allocET {S : Setup V F M} {s : Cam V F M} (h : Attr S s) (l : List DVId) : Attr S (s.allocET l) :=
  { h with
    et := fun b e he => by
      obtain ⟨h1, h2⟩ := h.et b e he
      have : e ≠ s.ne := Nat.ne_of_lt h1
      simp only [Cam.allocET, if_neg this]
      exact ⟨Nat.lt_succ_of_lt h1, h2⟩ }

theorem Attr.addDV {S : Setup V F M} {s : Cam V F M} (h : Attr S s) (b : BatchId) (d : DVId) (g : GroupId) :
    Pres (fun t => Attr S t ∧ t.nd = s.nd) (s.onBatch b fun p => p.addDesignVariable (some d) g) := by
  unfold onBatch OptProblem.addDesignVariable
  simp only
  split
  · exact Pres.throw ⟨h.setB b _ fun e he => h.et b e he, rfl⟩
  · refine Pres.ok ⟨h.setB b _ fun e he => ?_, rfl⟩
    simp only at he
    split at he <;> exact h.et b e he

theorem Attr.addET {S : Setup V F M} {s : Cam V F M} (h : Attr S s) (b : BatchId) (e : ETId)
    (he : e < s.ne ∧ s.w.heap.etDim e = 2) :
    Pres (fun t => Attr S t ∧ t.nd = s.nd) (s.onBatch b fun p => OptProblem.addErrorTerm s.w.heap p (some e)) := by
  unfold onBatch OptProblem.addErrorTerm
  simp only
  split
  · exact Pres.throw ⟨h.setB b _ fun e he => h.et b e he, rfl⟩
  · split
    · refine Pres.ok ⟨h.setB b _ fun e' he' => ?_, rfl⟩
      simp only [List.mem_append, List.mem_singleton] at he'
      rcases he' with he' | rfl
      · exact h.et b e' he'
      · exact he
    · exact Pres.throw ⟨h.setB b _ fun e he => h.et b e he, rfl⟩

theorem Attr.addDVs {S : Setup V F M} {s : Cam V F M} (h : Attr S s) (b : BatchId) (g : GroupId) (ds : List DVId) :
    Pres (fun t => Attr S t ∧ t.nd = s.nd) (addDVs b g ds s) := by
  induction ds generalizing s with
  | nil => exact Pres.ok ⟨h, rfl⟩
  | cons d ds ih =>
    refine (h.addDV b d g).bind fun _ t _ ht => ?_
    have := ih ht.1
    rw [ht.2] at this
    exact this

theorem Attr.initBatch {S : Setup V F M} {s : Cam V F M} (h : Attr S s) :
    Pres (fun t => Attr S t ∧ t.nd = s.nd) s.initBatch := by
  unfold Cam.initBatch
  have h1 : Attr S ({ s.setB s.nb OptProblem.empty with batch := some s.nb, nb := s.nb + 1 } : Cam V F M) :=
    { h.setB s.nb OptProblem.empty (by simp [OptProblem.empty]) with }
  refine (h1.addDVs s.nb s.opt.lmGroup s.lms).bind fun _ t _ ht => ?_
  have h2 := ht.1.addDVs s.nb s.opt.calGroup s.cal
  rw [ht.2] at h2
  refine h2.bind fun _ u _ hu => Pres.ok ⟨{ hu.1 with pend := fun e he => by simp at he }, hu.2⟩

theorem Attr.errorLoop {S : Setup V F M} {s : Cam V F M} (h : Attr S s) (b : BatchId) (q t : DVId) (o : Obs V) (ls : List DVId)
    (i : Nat) : Pres (fun t => Attr S t ∧ t.nd = s.nd) (errorLoop b q t o ls i s) := by
  induction ls generalizing s i with
  | nil => exact Pres.ok ⟨h, rfl⟩
  | cons l ls ih =>
    unfold Cam.errorLoop
    split
    · refine ((h.allocET _).addET b s.ne ⟨Nat.lt_succ_self _, by simp [Cam.allocET]⟩).bind fun _ u _ hu => ?_
      have := ih hu.1 (i + 1)
      rw [hu.2] at this
      exact this
    · exact ih h (i + 1)

theorem Attr.ensureBatch {S : Setup V F M} {s : Cam V F M} (h : Attr S s) :
    Pres (fun t => Attr S t ∧ t.nd = s.nd) s.ensureBatch := by
  unfold Cam.ensureBatch
  split
  · exact Pres.ok ⟨h, rfl⟩
  · exact h.initBatch

theorem Attr.addObservation {S : Setup V F M} {s : Cam V F M} (h : Attr S s) (o : Obs V) :
    Pres (Attr S) (s.addObservation o) ∧
    ∀ en s', s.addObservation o = .ok en s' → en.Made S.nd s'.nd := by
  constructor
  · unfold Cam.addObservation
    refine Pres.bind (fun ok s' ho => (h.ensureBatch ok s' ho).1) fun b s1 _ h1 => ?_
    refine Pres.bind (fun ok s' ho => ((h1.allocDV o.q).addDV b s1.nd s.opt.trGroup ok s' ho).1) fun _ s2 _ h2 => ?_
    refine Pres.bind (fun ok s' ho => ((h2.allocDV o.t).addDV b s2.nd s.opt.trGroup ok s' ho).1) fun _ s3 _ h3 => ?_
    refine Pres.bind (fun ok s' ho => (h3.errorLoop b s1.nd s2.nd o s3.lms 0 ok s' ho).1) fun _ s4 _ h4 => ?_
    exact Pres.ok { h4 with }
  · intro en s' ho
    unfold Cam.addObservation at ho
    obtain ⟨b, s1, e1, ho⟩ := bind_ok_inv ho
    obtain ⟨h1, -⟩ := h.ensureBatch true s1 (by rw [e1]; rfl)
    obtain ⟨_, s2, e2, ho⟩ := bind_ok_inv ho
    obtain ⟨h2, n2⟩ := (h1.allocDV o.q).addDV b s1.nd s.opt.trGroup true s2 (by rw [e2]; rfl)
    obtain ⟨_, s3, e3, ho⟩ := bind_ok_inv ho
    obtain ⟨h3, n3⟩ := (h2.allocDV o.t).addDV b s2.nd s.opt.trGroup true s3 (by rw [e3]; rfl)
    obtain ⟨_, s4, e4, ho⟩ := bind_ok_inv ho
    obtain ⟨h4, n4⟩ := h3.errorLoop b s1.nd s2.nd o s3.lms 0 true s4 (by rw [e4]; rfl)
    cases ho
    have n2' : s2.nd = s1.nd + 1 := n2
    have n3' : s3.nd = s2.nd + 1 := n3
    have k1 := h1.nd
    have k2 := h2.nd
    exact ⟨h1.nd, by show s1.nd < s4.nd; rw [n4, n3', n2']; omega, h2.nd, by show s2.nd < s4.nd; rw [n4, n3']; omega⟩

theorem Attr.processBatch {S : Setup V F M} {s : Cam V F M} (h : Attr S s) (D : Dbl F) (m0 : M)
    (oracle : OptInput V → OptCall V F M) (buildOk : Bool) : Pres (Attr S) (s.processBatch D m0 oracle buildOk) := by
  have key : ∀ {w' : EWorld V F M}, SameB s.w w' → Attr S { s with w := w' } := by
    intro w' hw
    exact { nd := h.nd
            old := fun d hd => by rw [hw.2]; exact h.old d hd
            new := fun d h1 h2 => by rw [hw.2]; exact h.new d h1 h2
            et := fun b e he => by rw [hw.2]; simp only [hw.1] at he; exact h.et b e he
            pend := h.pend
            subs := h.subs }
  unfold Cam.processBatch
  split
  · exact Pres.ok h
  · rename_i b hb
    split
    · rename_i e w' ha
      exact Pres.throw (key (addBatch_same (ok := false) (by rw [ha]; rfl)))
    · intro ok s' ho; simp [Res.outcome] at ho
    · intro ok s' ho; simp [Res.outcome] at ho
    · rename_i r w' ha
      have h1 := key (addBatch_same (ok := true) (by rw [ha]; rfl))
      have h2 : Attr S ({ s with
          w := w'
          estObs := if r.batchAccepted then s.batchObs ++ s.estObs else s.estObs
          subs := s.subs ++ [⟨b, s.batchObs, r.batchAccepted⟩] } : Cam V F M) :=
        { h1 with
          subs := fun x hx => by
            rcases List.mem_append.1 hx with hx | hx
            · exact h.subs x hx
            · rw [List.mem_singleton] at hx
              subst hx
              exact h.pend }
      refine Pres.bind (fun ok s' ho => (h2.initBatch ok s' ho).1) fun _ t _ ht => Pres.ok { ht with }

theorem Attr.addImage {S : Setup V F M} {s : Cam V F M} (h : Attr S s) (D : Dbl F) (m0 : M)
    (oracle : OptInput V → OptCall V F M) (buildOk : Bool) (found : Option (Obs V)) :
    Pres (Attr S) (s.addImage D m0 oracle buildOk found) := by
  unfold Cam.addImage
  split
  · exact Pres.throw h
  · split
    · exact Pres.ok h
    · rename_i o
      refine (h.addObservation o).1.bind fun en s1 he h1 => ?_
      have hm := (h.addObservation o).2 en s1 he
      have h2 : Attr S ({ s1 with batchObs := s1.batchObs ++ [en] } : Cam V F M) :=
        { h1 with
          pend := fun e he => by
            rcases List.mem_append.1 he with he | he
            · exact h1.pend e he
            · rw [List.mem_singleton] at he; subst he; exact hm }
      simp only
      split
      · exact (h2.processBatch D m0 oracle buildOk).bind fun _ t _ ht => Pres.ok ht
      · exact Pres.ok h2

theorem Reach.attr {S : Setup V F M} {s : Cam V F M} {seen : List (Obs V)} (h : Reach S s seen) : Attr S s := by
  induction h with
  | init => exact Attr.start S
  | @step s s' seen ok op hprev hs ih =>
    cases op with
    | initGeometry found =>
      have : Pres (Attr S) (s.initGeometry found) := by
        unfold Cam.initGeometry
        split
        · exact Pres.ok ih
        · split
          · exact Pres.ok { ih with }
          · exact Pres.ok ih
      exact (this.bind fun _ _ _ ht => Pres.ok ht) ok s' hs
    | setNum n =>
      have h1 : Attr S ({ s with opt := { s.opt with batchNumImages := n } } : Cam V F M) := { ih with }
      exact (Pres.ok (α := Option Bool) (a := none) (P := Attr S) h1) ok s' hs
    | processBatch oracle buildOk => exact ((ih.processBatch _ _ _ _).bind fun _ _ _ ht => Pres.ok ht) ok s' hs
    | addImage found oracle buildOk => exact ((ih.addImage _ _ _ _ _).bind fun _ _ _ ht => Pres.ok ht) ok s' hs

end Camera
end Verif
