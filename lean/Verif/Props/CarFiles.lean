import Verif.Lemmas.CarFiles
import Verif.Props.CarMain

/-!
# C135: the data files of the car programs
-/

namespace Verif
namespace CarMain
variable {K : Type}

/-- **C135, normal end.**  With any calibrator: the program makes the calls of C105; if all of them return, the data files
record exactly these calls, one line for each, in the order of the calls, with the values of the measurement and the time of the
message it comes from.  If some call does not return or is undefined, nothing else is claimed here. -/
theorem C135_data_files (env : Env K) (use : Use) (ms : List Msg) :
    ∃ cs, CallsAre env use ms cs ∧ ∀ {C : Type} (submit : C → Call → Res C Unit) (c c' : C),
      submitAll submit c cs = .ok () c' →
      ∃ w, loopIO submit env use (St.init env) [] c ms = .ok () (w, c') ∧ Record ms w cs ∧
        loop submit env use (St.init env) c ms = .ok () c' := by
  refine ⟨_, (calls_spec env use ms).1, fun submit c c' h => ⟨actLines (actsFrom env use (St.init env) ms), ?_, ?_, ?_⟩⟩
  · rw [loopIO_eq, (exec_calls submit [] c _).1 c' (by rw [actsFrom_calls]; exact h)]
    rfl
  · have := actsFrom_record env use (St.init env) ms
    rwa [actsFrom_calls] at this
  · rw [loop_eq]; exact h

/-- **C135, end with an exception** (partial).  If a call throws, the program ends with this exception, and the lines in the
files record calls made so far: without the one that threw if it was that of a wheel, the steering or the odometer; including it
if it was that of a velocity; and including it and the velocity of the same message, which was never handed over, if it was that
of a pose.  Missing: that the files record exactly the calls that returned, or exactly those that were made (`C135_phantom`). -/
theorem C135_crash_partial (env : Env K) (use : Use) (ms : List Msg) :
    ∃ cs, CallsAre env use ms cs ∧ ∀ {C : Type} (submit : C → Call → Res C Unit) (c c' : C) (e : Exc),
      submitAll submit c cs = .throw e c' →
      ∃ w done x rest c1 ms1, loopIO submit env use (St.init env) [] c ms = .throw e (w, c') ∧
        cs = done ++ x :: rest ∧ submitAll submit c done = .ok () c1 ∧ submit c1 x = .throw e c' ∧ ms1 <+: ms ∧
        ((((∀ p t, x ≠ .pose p t) ∧ ∀ v t, x ≠ .vel v t) ∧ Record ms1 w done) ∨
         (∃ v t, x = .vel v t ∧ Record ms1 w (done ++ [x])) ∨
         (∃ p t v rest', x = .pose p t ∧ rest = .vel v t :: rest' ∧ Record ms1 w (done ++ [x, .vel v t]))) := by
  refine ⟨_, (calls_spec env use ms).1, fun submit c c' e h => ?_⟩
  obtain ⟨a, x, b, c1, e1, e2, e3, e4⟩ := (exec_calls submit [] c (actsFrom env use (St.init env) ms)).2.1 e c'
    (by rw [actsFrom_calls]; exact h)
  obtain ⟨ms1, hp, hh⟩ := actsFrom_prefix env use _ ms a b x e1
  refine ⟨actLines a, actCalls a, x, actCalls b, c1, ms1, by rw [loopIO_eq, e4]; rfl, ?_, e2, e3, hp, ?_⟩
  · rw [← actsFrom_calls, e1, actCalls_append]
    simp [actCalls]
  · rcases hh with hh | ⟨p, v, t, b', h1, h2, h3⟩ | hh
    · exact .inl hh
    · refine .inr (.inr ⟨p, t, v, actCalls b', h1, ?_, h3⟩)
      rw [h2]; simp [actCalls]
    · exact .inr (.inl hh)

/-- the lines are one for each recorded call, sensor by sensor as well. -/
theorem Record.length {ms : List Msg} {w : List Line} {cs : List Call} (h : Record ms w cs) : List.Forall₂ Shows w cs := by
  obtain ⟨parts, -, rfl, rfl, h4⟩ := h
  induction parts with
  | nil => exact .nil
  | cons p parts ih =>
    simp only [List.map_cons, List.flatten_cons]
    exact List.rel_append (h4 p List.mem_cons_self).1 (ih fun q hq => h4 q (List.mem_cons_of_mem _ hq))

/-- the sensor of a call. -/
def Call.sensor : Call → Sensor
  | .pose .. => .pose
  | .vel .. => .vel
  | .front .. => .fw
  | .rear .. => .rw
  | .steer .. => .st
  | .dmi .. => .dmi

/-- **C135, file by file**: after a normal end the file of each sensor has one line for each call of that sensor, in order. -/
theorem C135_each_file {ms : List Msg} {w : List Line} {cs : List Call} (h : Record ms w cs) (s : Sensor) :
    List.Forall₂ Shows (w.filter fun l => l.sensor = s) (cs.filter fun x => x.sensor = s) := by
  have h' := h.length
  clear h
  induction h' with
  | nil => exact .nil
  | @cons l x w cs h1 _ ih =>
    have hs : l.sensor = x.sensor := by cases x <;> exact h1.1
    by_cases e : x.sensor = s
    · rw [List.filter_cons_of_pos (by simpa [hs] using e), List.filter_cons_of_pos (by simpa using e)]
      exact .cons h1 ih
    · rw [List.filter_cons_of_neg (by simpa [hs] using e), List.filter_cons_of_neg (by simpa using e)]
      exact ih

/-- **C135 (negation).**  For every recording whose first usable navigation message comes first, and a calibrator that throws at
that pose, the velocity file has a line although no velocity was ever handed over. -/
theorem C135_phantom (env : Env K) (use : Use) (p : Vnp) (s : Vns) (ms : List Msg) {C : Type} (submit : C → Call → Res C Unit)
    (c c' : C) (e : Exc) (h : ∀ q t, submit c (.pose q t) = .throw e c') :
    ∃ l1 l2, loopIO submit env use (St.init env) [] c (.vnp p :: .vns s :: ms) = .throw e ([l1, l2], c') ∧ l1.sensor = .pose ∧
      l2.sensor = .vel := by
  have hb : (stepIO env use (stepIO env use (St.init env) (.vnp p)).1 (.vns s)).2 ≠ [] := by simp [stepIO]
  have hk := stepIO_block env use (stepIO env use (St.init env) (.vnp p)).1 (.vns s)
  generalize hg : (stepIO env use (stepIO env use (St.init env) (.vnp p)).1 (.vns s)).2 = as at hb hk
  cases hk with
  | nothing => exact absurd rfl hb
  | after x l t hs hm ht hx => simp [stepIO, St.init] at hg
  | before q v k l1 l2 t h1 h2 hm hs1 hs2 =>
    refine ⟨l1, l2, ?_, h1.1, h2.1⟩
    have h0 : (stepIO env use (St.init env) (.vnp p)).2 = [] := rfl
    simp only [loopIO]
    rw [h0, hg]
    simp [exec, Res.bind, h]

/-- Non-vacuity: a recording with a pose, a velocity and a front wheel message; a calibrator that accepts everything makes the
program end normally with three lines, one that refuses makes it end after the first two. -/
example : (∃ w, loopIO (fun (n : Nat) _ => .ok () (n + 1)) plain ⟨true, true, true, true⟩ (St.init plain) [] 0
      [.vnp demoVnp, .vns (demoVns 1), .fws 1 2 3 4] = .ok () (w, 3) ∧ w.length = 3) ∧
    ∃ w, loopIO (fun (n : Nat) _ => .throw .external n) plain ⟨true, true, true, true⟩ (St.init plain) [] 0
      [.vnp demoVnp, .vns (demoVns 1), .fws 1 2 3 4] = .throw .external (w, 0) ∧ w.length = 2 := by
  constructor
  · refine ⟨_, by simp [loopIO, stepIO, exec, Res.bind, St.init]; rfl, by simp⟩
  · obtain ⟨l1, l2, h, -⟩ := C135_phantom plain ⟨true, true, true, true⟩ demoVnp (demoVns 1) [.fws 1 2 3 4]
      (fun (n : Nat) _ => .throw .external n) 0 0 .external (fun _ _ => rfl)
    exact ⟨_, h, rfl⟩

end CarMain
end Verif
