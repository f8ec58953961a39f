import Verif.Model.CarFiles
import Verif.Spec.CarFiles
import Verif.Lemmas.CarMain

/-!
# Lemmas for C135
-/

namespace Verif
namespace CarMain
variable {K : Type}

/-- the calls among actions. -/
def actCalls (as : List Act) : List Call := as.filterMap fun a => match a with | .call x => some x | .write _ => none
/-- the lines among actions. -/
def actLines (as : List Act) : List Line := as.filterMap fun a => match a with | .write l => some l | .call _ => none

/-- what a message makes the program do. -/
inductive Block (m : Msg) : List Act → Prop
  | nothing : Block m []
  | after (x : Call) (l : Line) (t : ℝ) (h : Shows l x) (hm : m.stampOf = some t) (hs : l.sec = t / 1000000000)
      (hx : (∀ p t, x ≠ .pose p t) ∧ ∀ v t, x ≠ .vel v t) : Block m [.call x, .write l]
  | before (p : PoseM) (v : VelM) (k : ℤ) (l1 l2 : Line) (t : ℝ) (h1 : Shows l1 (.pose p k)) (h2 : Shows l2 (.vel v k))
      (hm : m.stampOf = some t) (hs1 : l1.sec = t / 1000000000) (hs2 : l2.sec = t / 1000000000) :
      Block m [.write l1, .write l2, .call (.pose p k), .call (.vel v k)]

theorem stepIO_step (env : Env K) (use : Use) (st : St K) (m : Msg) :
    (stepIO env use st m).1 = (step env use st m).1 ∧ actCalls (stepIO env use st m).2 = (step env use st m).2 := by
  cases m with
  | vnp p => simp [stepIO, step, actCalls]
  | vns s => cases h : st.lastVnp <;> simp [stepIO, step, actCalls, h]
  | fws => simp only [stepIO, step]; split <;> simp [actCalls]
  | rws => simp only [stepIO, step]; split <;> simp [actCalls]
  | st => simp only [stepIO, step]; split <;> simp [actCalls]
  | dmi =>
    simp only [stepIO, step]
    split
    · split <;> simp [actCalls]
    · simp [actCalls]

theorem stepIO_block (env : Env K) (use : Use) (st : St K) (m : Msg) : Block m (stepIO env use st m).2 := by
  cases m with
  | vnp p => exact .nothing
  | vns s =>
    cases h : st.lastVnp with
    | none => simp only [stepIO, h]; exact .nothing
    | some p =>
      simp only [stepIO, h]
      refine .before _ _ _ _ _ s.stamp ⟨rfl, ?_⟩ ⟨rfl, ?_⟩ rfl rfl rfl <;> simp [vecText, diagText]
  | fws l r seq t =>
    simp only [stepIO]
    split
    · exact .after _ _ t ⟨rfl, rfl⟩ rfl rfl ⟨by simp, by simp⟩
    · exact .nothing
  | rws l r seq t =>
    simp only [stepIO]
    split
    · exact .after _ _ t ⟨rfl, rfl⟩ rfl rfl ⟨by simp, by simp⟩
    · exact .nothing
  | st v seq t =>
    simp only [stepIO]
    split
    · exact .after _ _ t ⟨rfl, rfl⟩ rfl rfl ⟨by simp, by simp⟩
    · exact .nothing
  | dmi d t1 t =>
    simp only [stepIO]
    split
    · split
      · exact .after _ _ t ⟨rfl, rfl⟩ rfl rfl ⟨by simp, by simp⟩
      · exact .nothing
    · exact .nothing

/-- all actions of the loop. -/
noncomputable def actsFrom (env : Env K) (use : Use) : St K → List Msg → List Act
  | _, [] => []
  | st, m :: ms => (stepIO env use st m).2 ++ actsFrom env use (stepIO env use st m).1 ms

theorem actCalls_append (a b : List Act) : actCalls (a ++ b) = actCalls a ++ actCalls b := by simp [actCalls]
theorem actLines_append (a b : List Act) : actLines (a ++ b) = actLines a ++ actLines b := by simp [actLines]

theorem actsFrom_calls (env : Env K) (use : Use) (st : St K) (ms : List Msg) :
    actCalls (actsFrom env use st ms) = callsFrom env use st ms := by
  induction ms generalizing st with
  | nil => rfl
  | cons m ms ih =>
    simp only [actsFrom, callsFrom]
    rw [actCalls_append, ih, (stepIO_step env use st m).1, (stepIO_step env use st m).2]

theorem exec_append {C : Type} (submit : C → Call → Res C Unit) (w : List Line) (c : C) (a b : List Act) :
    exec submit w c (a ++ b) = (exec submit w c a).bind fun _ s => exec submit s.1 s.2 b := by
  induction a generalizing w c with
  | nil => rfl
  | cons x a ih =>
    cases x with
    | write l => simp only [List.cons_append, exec]; exact ih _ _
    | call x =>
      simp only [List.cons_append, exec]
      cases submit c x <;> simp [Res.bind, ih]

theorem loopIO_eq {C : Type} (submit : C → Call → Res C Unit) (env : Env K) (use : Use) (st : St K) (w : List Line) (c : C)
    (ms : List Msg) : loopIO submit env use st w c ms = exec submit w c (actsFrom env use st ms) := by
  induction ms generalizing st w c with
  | nil => rfl
  | cons m ms ih =>
    simp only [loopIO, actsFrom, exec_append]
    congr 1
    funext _ s
    exact ih _ _ _

/-- forgetting the files leaves the calls. -/
theorem exec_calls {C : Type} (submit : C → Call → Res C Unit) (w : List Line) (c : C) (as : List Act) :
    (∀ c', submitAll submit c (actCalls as) = .ok () c' → exec submit w c as = .ok () (w ++ actLines as, c')) ∧
    (∀ e c', submitAll submit c (actCalls as) = .throw e c' →
      ∃ a x b c1, as = a ++ .call x :: b ∧ submitAll submit c (actCalls a) = .ok () c1 ∧ submit c1 x = .throw e c' ∧
        exec submit w c as = .throw e (w ++ actLines a, c')) ∧
    (submitAll submit c (actCalls as) = .ub → exec submit w c as = .ub) ∧
    (submitAll submit c (actCalls as) = .diverge → exec submit w c as = .diverge) := by
  induction as generalizing w c with
  | nil => simp [actCalls, submitAll, exec, actLines]
  | cons x as ih =>
    cases x with
    | write l =>
      obtain ⟨h1, h2, h3, h4⟩ := ih (w ++ [l]) c
      refine ⟨fun c' h => ?_, fun e c' h => ?_, fun h => ?_, fun h => ?_⟩
      · rw [exec, h1 c' (by simpa [actCalls] using h)]; simp [actLines]
      · obtain ⟨a, x, b, c1, e1, e2, e3, e4⟩ := h2 e c' (by simpa [actCalls] using h)
        refine ⟨.write l :: a, x, b, c1, by rw [e1]; rfl, by simpa [actCalls] using e2, e3, ?_⟩
        rw [exec, e4]; simp [actLines]
      · rw [exec]; exact h3 (by simpa [actCalls] using h)
      · rw [exec]; exact h4 (by simpa [actCalls] using h)
    | call y =>
      have hc : actCalls (.call y :: as) = y :: actCalls as := by simp [actCalls]
      have hl : ∀ as, actLines (.call y :: as) = actLines as := by simp [actLines]
      rw [hc, exec, submitAll]
      cases hy : submit c y with
      | ok u c' =>
        obtain ⟨h1, h2, h3, h4⟩ := ih w c'
        simp only [Res.bind]
        refine ⟨fun c'' h => by rw [h1 c'' h, hl], fun e c'' h => ?_, h3, h4⟩
        obtain ⟨a, x, b, c1, e1, e2, e3, e4⟩ := h2 e c'' h
        refine ⟨.call y :: a, x, b, c1, by rw [e1]; rfl, ?_, e3, by rw [e4, hl]⟩
        have : actCalls (.call y :: a) = y :: actCalls a := by simp [actCalls]
        rw [this, submitAll, hy]
        exact e2
      | throw e c' =>
        simp only [Res.bind]
        refine ⟨by simp, fun e' c'' h => ?_, by simp, by simp⟩
        simp only [Res.throw.injEq] at h
        obtain ⟨rfl, rfl⟩ := h
        exact ⟨[], y, as, c, rfl, rfl, hy, by simp [actLines]⟩
      | ub => simp [Res.bind]
      | diverge => simp [Res.bind]

theorem Record.cons {m : Msg} {as : List Act} (h : Block m as) {ms : List Msg} {w : List Line} {cs : List Call}
    (hr : Record ms w cs) : Record (m :: ms) (actLines as ++ w) (actCalls as ++ cs) := by
  obtain ⟨parts, h1, h2, h3, h4⟩ := hr
  refine ⟨(m, actLines as, actCalls as) :: parts, by simp [h1], by simp [h2], by simp [h3], ?_⟩
  intro p hp
  rcases List.mem_cons.mp hp with rfl | hp
  · cases h with
    | nothing => simp [actLines, actCalls]
    | after x l t hs hm ht hx =>
      simp only [actLines, actCalls, List.filterMap_cons, List.filterMap_nil]
      exact ⟨.cons hs .nil, fun l' hl => by simp only [List.mem_singleton] at hl; subst hl; exact ⟨t, hm, ht⟩⟩
    | before p v k l1 l2 t h1 h2 hm hs1 hs2 =>
      simp only [actLines, actCalls, List.filterMap_cons, List.filterMap_nil]
      refine ⟨.cons h1 (.cons h2 .nil), fun l' hl => ?_⟩
      simp only [List.mem_cons, List.not_mem_nil, or_false] at hl
      rcases hl with rfl | rfl
      · exact ⟨t, hm, hs1⟩
      · exact ⟨t, hm, hs2⟩
  · exact h4 p hp

theorem Record.nil : Record [] [] [] := ⟨[], rfl, rfl, rfl, by simp⟩

theorem actsFrom_record (env : Env K) (use : Use) (st : St K) (ms : List Msg) :
    Record ms (actLines (actsFrom env use st ms)) (actCalls (actsFrom env use st ms)) := by
  induction ms generalizing st with
  | nil => exact Record.nil
  | cons m ms ih =>
    simp only [actsFrom, actLines_append, actCalls_append]
    exact (ih _).cons (stepIO_block env use st m)

/-- what the lines are when a call is about to be made. -/
theorem actsFrom_prefix (env : Env K) (use : Use) (st : St K) (ms : List Msg) (a b : List Act) (x : Call)
    (h : actsFrom env use st ms = a ++ .call x :: b) :
    ∃ ms1, ms1 <+: ms ∧
      ((((∀ p t, x ≠ .pose p t) ∧ ∀ v t, x ≠ .vel v t) ∧ Record ms1 (actLines a) (actCalls a)) ∨
       (∃ p v t b', x = .pose p t ∧ b = .call (.vel v t) :: b' ∧ Record ms1 (actLines a) (actCalls a ++ [x, .vel v t])) ∨
       (∃ v t, x = .vel v t ∧ Record ms1 (actLines a) (actCalls a ++ [x]))) := by
  induction ms generalizing st a with
  | nil => simp [actsFrom] at h
  | cons m ms ih =>
    simp only [actsFrom] at h
    have hb := stepIO_block env use st m
    generalize (stepIO env use st m).2 = as at h hb
    -- the call is in this block or later
    rcases List.append_eq_append_iff.mp h with ⟨a', h1, h2⟩ | ⟨c', h1, h2⟩
    · obtain ⟨ms1, hp, hh⟩ := ih _ a' h2
      refine ⟨m :: ms1, List.cons_prefix_cons.mpr ⟨rfl, hp⟩, ?_⟩
      subst h1
      simp only [actLines_append, actCalls_append, List.append_assoc]
      rcases hh with ⟨e1, hr⟩ | ⟨p, v, t, b', e1, e2, hr⟩ | ⟨v, t, e1, hr⟩
      · exact .inl ⟨e1, hr.cons hb⟩
      · exact .inr (.inl ⟨p, v, t, b', e1, e2, hr.cons hb⟩)
      · exact .inr (.inr ⟨v, t, e1, hr.cons hb⟩)
    · cases c' with
      | nil =>
        simp only [List.append_nil] at h1
        simp only [List.nil_append] at h2
        obtain ⟨ms1, hp, hh⟩ := ih _ [] (by simpa using h2.symm)
        refine ⟨m :: ms1, List.cons_prefix_cons.mpr ⟨rfl, hp⟩, ?_⟩
        subst h1
        have z : ∀ {w cs}, Record ms1 w cs → w = [] → Record (m :: ms1) (actLines as) (actCalls as ++ cs) := by
          intro w cs hr hw
          subst hw
          simpa using hr.cons hb
        rcases hh with ⟨e1, hr⟩ | ⟨p, v, t, b', e1, e2, hr⟩ | ⟨v, t, e1, hr⟩
        · have := z hr (by simp [actLines])
          exact .inl ⟨e1, by simpa [actCalls] using this⟩
        · exact .inr (.inl ⟨p, v, t, b', e1, e2, by simpa [actCalls] using z hr (by simp [actLines])⟩)
        · exact .inr (.inr ⟨v, t, e1, by simpa [actCalls] using z hr (by simp [actLines])⟩)
      | cons y c' =>
        simp only [List.cons_append, List.cons.injEq] at h2
        obtain ⟨rfl, rfl⟩ := h2
        cases hb with
        | nothing => simp at h1
        | after x' l t hs hm ht hx =>
          -- the call is the first action
          rcases a with _ | ⟨a0, a⟩
          · simp only [List.nil_append, List.cons.injEq, Act.call.injEq] at h1
            obtain ⟨rfl, -⟩ := h1
            exact ⟨[], List.nil_prefix, .inl ⟨hx, by simpa [actLines, actCalls] using Record.nil⟩⟩
          · exfalso
            rcases a with _ | ⟨a1, a⟩ <;> simp at h1
        | before p v k l1 l2 t hh1 hh2 hm hs1 hs2 =>
          have hr := Record.nil.cons (Block.before (m := m) p v k l1 l2 t hh1 hh2 hm hs1 hs2)
          simp only [actLines, actCalls, List.filterMap_cons, List.filterMap_nil, List.append_nil] at hr
          rcases a with _ | ⟨a0, a⟩
          · simp at h1
          rcases a with _ | ⟨a1, a⟩
          · simp at h1
          rcases a with _ | ⟨a2, a⟩
          · simp only [List.cons_append, List.nil_append, List.cons.injEq, Act.call.injEq] at h1
            obtain ⟨rfl, rfl, rfl, rfl⟩ := h1
            refine ⟨[m], by simp, .inr (.inl ⟨p, v, k, _, rfl, rfl, ?_⟩)⟩
            simpa [actLines, actCalls] using hr
          rcases a with _ | ⟨a3, a⟩
          · simp only [List.cons_append, List.nil_append, List.cons.injEq, Act.call.injEq] at h1
            obtain ⟨rfl, rfl, rfl, rfl, -⟩ := h1
            refine ⟨[m], by simp, .inr (.inr ⟨v, k, rfl, ?_⟩)⟩
            simpa [actLines, actCalls] using hr
          · simp at h1

end CarMain
end Verif
