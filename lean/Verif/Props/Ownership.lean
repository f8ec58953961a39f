import Verif.Model.Ownership
import Verif.Props.IncProblem
import Verif.Lemmas.IncIrregular

/-!
# C150: no call uses a destroyed design variable
-/

namespace Verif
variable {V : Type _}

/-- States a client program can bring about by regular calls in `P` (see `IOp.Regular`: no failed `add`, contained batches keep their
variables), releasing and taking shared pointers at any time. -/
inductive OReach (P : IOp V → Prop) (h0 : Heap V) : OWorld V → Prop where
  | init (ds : List DVId) (bs : List BatchId) : OReach P h0 ⟨World.init h0, ds, bs⟩
  | call {s s' : OWorld V} (op : IOp V) (ok : Bool) : OReach P h0 s → (OOp.call op).legal s = true →
      ((OOp.call op).step s).outcome = some (ok, s') → op.Regular s.w ok → P op → OReach P h0 s'
  | own {s s' : OWorld V} (op : OOp V) : OReach P h0 s → (∀ c, op ≠ .call c) → op.legal s = true → op.step s = .ok () s' →
      OReach P h0 s'

theorem own_world {s s' : OWorld V} {op : OOp V} (h : ∀ c, op ≠ .call c) (hs : op.step s = .ok () s') : s'.w = s.w := by
  cases op with
  | call c => exact absurd rfl (h c)
  | _ => simp only [OOp.step, Res.ok.injEq, true_and] at hs; rw [← hs]

theorem call_world {s s' : OWorld V} {op : IOp V} {ok : Bool} (hs : ((OOp.call op).step s).outcome = some (ok, s')) :
    (op.step s.w).outcome = some (ok, s'.w) := by
  simp only [OOp.step] at hs
  split_ifs at hs
  · obtain ⟨w, h1, h2⟩ := outcome_mapState hs
    rw [h2]; exact h1
  · simp [Res.outcome] at hs

theorem OReach.world {P : IOp V → Prop} {h0 : Heap V} {s : OWorld V} (h : OReach P h0 s) : ReachP P h0 s.w := by
  induction h with
  | init ds bs => exact .init
  | call op ok _ _ hs hr hp ih => exact .step op ok ih (call_world hs) hr hp
  | own op _ hc _ hs ih => rw [own_world hc hs]; exact ih

theorem reach_weaken {P : IOp V → Prop} {h0 : Heap V} {w : World V} (h : ReachP P h0 w) : Reach h0 w := by
  induction h with
  | init => exact .init
  | step op ok _ h1 h2 _ ih => exact .step op ok ih h1 h2 trivial

theorem alive_of_contained {s : OWorld V} {b : BatchId} (hb : b ∈ s.w.inc.problems) {d : DVId} (hd : (s.w.B b).isDVInProblem d = true) :
    s.alive d = true := by
  unfold OWorld.alive
  rw [Bool.or_eq_true]
  right
  rw [List.any_eq_true]
  exact ⟨b, List.mem_append_right _ hb, hd⟩

theorem alive_of_batch {s : OWorld V} {b : BatchId} (hb : s.batchAlive b = true) {d : DVId} (hd : (s.w.B b).isDVInProblem d = true) :
    s.alive d = true := by
  unfold OWorld.batchAlive at hb
  rw [Bool.or_eq_true, List.contains_iff_mem, List.contains_iff_mem] at hb
  unfold OWorld.alive
  rw [Bool.or_eq_true]
  right
  rw [List.any_eq_true]
  exact ⟨b, List.mem_append.2 hb, hd⟩

theorem inBatch_iff {p : OptProblem V} {d : DVId} : p.isDVInProblem d = true ↔ d ∈ AL.keys p.lookup := by
  rw [OptProblem.isDVInProblem, AL.has_iff]

/-- **C150** (partial): whatever the client releases, every variable the incremental problem has, enumerates or lists in a group exists, and so
do the variables of every batch that exists and those its error terms point to; no call but `restoreDesignVariables` on the
incremental problem uses a destroyed variable: it behaves as if nothing had been released.  Missing: `restoreDesignVariables` after `clear`, histories with a failed
`add` or in which a contained batch is cleared (see below). -/
theorem C150_exists_partial {P : IOp V → Prop} {h0 : Heap V} {s : OWorld V} (h : OReach P h0 s) :
    (∀ d, s.w.inc.isDVInProblem d = true → s.alive d = true) ∧
    (∀ i d, s.w.inc.designVariable i = .ok d () → s.alive d = true) ∧
    (∀ g l, s.w.inc.getGroup g = .ok l () → ∀ d ∈ l, s.alive d = true) ∧
    (∀ i e, s.w.inc.errorTerm s.w.B i = .ok e () → ∀ d ∈ s.w.heap.etDVs e, s.alive d = true) ∧
    (∀ b, s.batchAlive b = true → (∀ d, (s.w.B b).isDVInProblem d = true → s.alive d = true) ∧
      ∀ e, (s.w.B b).isETInProblem e = true → ∀ d ∈ s.w.heap.etDVs e, s.alive d = true) ∧
    (∀ op, (OOp.call op).legal s = true → op ≠ .restore →
      (OOp.call op).step s = (op.step s.w).mapState fun w => { s with w := w }) := by
  have hr : Reach h0 s.w := reach_weaken h.world
  have hw := hr.inv
  have h1 : ∀ d, s.w.inc.isDVInProblem d = true → s.alive d = true := by
    intro d hd
    obtain ⟨b, hb, hd⟩ := ((C10_inc_counts hr).1 d).1 hd
    exact alive_of_contained hb hd
  have h5 : ∀ b, s.batchAlive b = true → (∀ d, (s.w.B b).isDVInProblem d = true → s.alive d = true) ∧
      ∀ e, (s.w.B b).isETInProblem e = true → ∀ d ∈ s.w.heap.etDVs e, s.alive d = true := by
    intro b hb
    refine ⟨fun d hd => alive_of_batch hb hd, fun e he d hd => alive_of_batch hb (inBatch_iff.2 ?_)⟩
    refine (hw.batches b).cl e ?_ d hd
    simpa [OptProblem.isETInProblem] using he
  refine ⟨h1, ?_, ?_, ?_, h5, ?_⟩
  · intro i d hd
    obtain ⟨⟨e, -, -, he, hi, -⟩, -⟩ := C12_inc_enumeration hr
    rw [hi i] at hd
    cases hg : e[i]? with
    | none => rw [hg] at hd; cases hd
    | some d' =>
      rw [hg] at hd
      simp only [Res.ok.injEq, and_true] at hd
      subst hd
      obtain ⟨b, hb, hd⟩ := (he d').1 (List.mem_of_getElem? hg)
      exact alive_of_contained hb hd
  · intro g l hl d hd
    unfold IncProblem.getGroup at hl
    split at hl
    · rename_i l' hg
      simp only [Res.ok.injEq, and_true] at hl
      subst hl
      have := (hw.g.mem g l' hg d).1 hd
      refine h1 d ?_
      rw [IncProblem.isDVInProblem, AL.has_iff]
      refine (AL.mem_keys_iff _ _).2 ?_
      cases hc : AL.get d s.w.inc.counts with
      | none => rw [hc] at this; cases this
      | some v => exact ⟨v, rfl⟩
    · cases hl
  · intro i e he d hd
    obtain ⟨-, -, -, hi, hm⟩ := C13_inc_error_terms hr
    have : s.w.inc.isETInProblem s.w.B e = true := by
      rw [hi i] at he
      refine (hm e).2 ?_
      split at he
      · rename_i hg
        simp only [Res.ok.injEq, and_true] at he
        exact he ▸ List.mem_of_getElem? hg
      · cases he
    unfold IncProblem.isETInProblem at this
    obtain ⟨b, hb, hbe⟩ := List.any_eq_true.1 this
    refine (h5 b ?_).2 e hbe d hd
    unfold OWorld.batchAlive
    rw [Bool.or_eq_true, List.contains_iff_mem, List.contains_iff_mem]
    exact .inr hb
  · intro op hl hne
    simp only [OOp.step]
    rw [if_pos]
    rw [List.all_eq_true]
    intro d hd
    cases op with
    | save =>
      refine h1 d ?_
      rw [IncProblem.isDVInProblem, AL.has_iff]
      exact hd
    | restore => exact absurd rfl hne
    | batch b bop =>
      cases bop with
      | save => exact (h5 b hl).1 d (inBatch_iff.2 hd)
      | restore => exact (h5 b hl).1 d (inBatch_iff.2 ((hw.batches b).bk d hd))
      | setValue d' v =>
        simp only [IOp.uses, List.mem_singleton] at hd
        simp only [OOp.legal, Bool.and_eq_true] at hl
        rw [hd]; exact hl.2
      | setActive d' v =>
        simp only [IOp.uses, List.mem_singleton] at hd
        simp only [OOp.legal, Bool.and_eq_true] at hl
        rw [hd]; exact hl.2
      | _ => simp [IOp.uses] at hd
    | _ => simp [IOp.uses] at hd

/-- **C150** (partial): in histories that never clear the incremental problem no call at all uses a destroyed variable. -/
theorem C150_restore_partial {h0 : Heap V} {s : OWorld V} (h : OReach IOp.NoClear h0 s) (op : OOp V) (hl : op.legal s = true) :
    op.step s ≠ .ub ∧ ∀ c, op = .call c → op.step s = (c.step s.w).mapState fun w => { s with w := w } := by
  have hr : Reach h0 s.w := reach_weaken h.world
  have key : ∀ c, op = .call c → op.step s = (c.step s.w).mapState fun w => { s with w := w } := by
    intro c hc
    subst hc
    by_cases hne : c = .restore
    · subst hne
      simp only [OOp.step]
      rw [if_pos]
      rw [List.all_eq_true]
      intro d hd
      refine (C150_exists_partial h).1 d ?_
      rw [IncProblem.isDVInProblem, AL.has_iff]
      exact backup_sub h.world d hd
    · exact (C150_exists_partial h).2.2.2.2.2 c hl hne
  refine ⟨?_, key⟩
  cases op with
  | call c =>
    rw [key c rfl]
    intro hub
    exact hr.inv.step_not_ub c (mapState_ub hub)
  | _ => simp [OOp.step]

/-- **C150**: the batches are safe after any history whatsoever: what a batch that exists and its error terms point to exists, and saving and
restoring it uses nothing else. -/
theorem C150_batches {h0 : Heap V} {s : OWorld V} (h : AnyReach h0 s.w) {b : BatchId} (hb : s.batchAlive b = true) :
    (∀ e, (s.w.B b).isETInProblem e = true → ∀ d ∈ s.w.heap.etDVs e, s.alive d = true) ∧
    (OOp.call (.batch b .save)).step s ≠ .ub ∧ (OOp.call (.batch b .restore)).step s ≠ .ub := by
  have hi := h.batches b
  refine ⟨fun e he d hd => alive_of_batch hb (inBatch_iff.2 (hi.cl e (by simpa [OptProblem.isETInProblem] using he) d hd)), ?_, ?_⟩
  · unfold OOp.step
    simp only []
    rw [if_pos]
    · simp [IOp.step, BOp.step, Res.mapState]
    · exact List.all_eq_true.2 fun d hd => alive_of_batch hb (inBatch_iff.2 hd)
  · unfold OOp.step
    simp only []
    rw [if_pos]
    · simp [IOp.step, BOp.step, Res.mapState]
    · exact List.all_eq_true.2 fun d hd => alive_of_batch hb (inBatch_iff.2 (hi.bk d hd))

/-- the start: the client holds some variables and two batches. -/
def ostart : OWorld Nat := ⟨World.init heap0, [3, 4, 5], [0, 1]⟩

/-- **C150** (what is wrong): three programs, each with a legal client, whose last call uses a destroyed variable.  First: `clear` and
`restoreDesignVariables` after `saveDesignVariables`.  Second: an `add` that throws, the rejected batch is released.  Third: a contained batch
is cleared. -/
theorem C150_dangling :
    (∀ p ∈ [[OOp.call (.batch 0 (.addDV (some 3) 0)), .call (.add (some 0)), .call .save, .call .clear, .dropB 0, .dropDV 3, .call .restore],
        [.call (.batch 0 (.addDV (some 3) 0)), .call (.batch 1 (.addDV (some 4) 0)), .call (.batch 1 (.addDV (some 3) 1)),
          .call (.add (some 0)), .call (.add (some 1)), .dropB 1, .dropDV 4, .call .save],
        [.call (.batch 0 (.addDV (some 3) 0)), .call (.add (some 0)), .call (.batch 0 .clear), .dropDV 3, .call .save]],
      OOp.runLegal p ostart = true ∧
      (match OOp.run p.dropLast ostart with | .ok _ _ => true | _ => false) = true ∧
      (match OOp.run p ostart with | .ub => true | _ => false) = true) := by
  decide

/-- non-vacuity: a client adds a batch and releases everything: the variable still exists, and can be saved and restored. -/
example : ∃ s : OWorld Nat, OReach IOp.NoClear heap0 s ∧ s.userDV = [] ∧ s.userB = [] ∧ s.w.inc.isDVInProblem 3 = true ∧ s.alive 3 = true ∧
    s.alive 4 = false := by
  have r1 : OReach IOp.NoClear heap0 _ := OReach.call (.batch 0 (.addDV (some 3) 0)) true
    (OReach.init (V := Nat) (P := IOp.NoClear) (h0 := heap0) [3] [0]) (by decide) rfl (fun hb => absurd hb (by decide)) (by simp [IOp.NoClear])
  have r2 := OReach.call (.add (some 0)) true r1 (by decide) rfl rfl (by simp [IOp.NoClear])
  have r3 := OReach.own (.dropB 0) r2 (by simp) (by decide) rfl
  have r4 := OReach.own (.dropDV 3) r3 (by simp) (by decide) rfl
  exact ⟨_, r4, by decide, by decide, by decide, by decide, by decide⟩

end Verif
