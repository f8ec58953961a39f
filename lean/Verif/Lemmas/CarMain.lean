import Verif.Spec.CarMain

/-! Lemmas for the car programs. -/

namespace Verif
namespace CarMain
open Geodetic
variable {K : Type}

/-- the calls made for a list of messages. -/
noncomputable def callsFrom (env : Env K) (use : Use) : St K → List Msg → List Call
  | _, [] => []
  | st, m :: ms => (step env use st m).2 ++ callsFrom env use (step env use st m).1 ms

/-- the variables after a list of messages. -/
noncomputable def after (env : Env K) (use : Use) (st : St K) (ms : List Msg) : St K :=
  ms.foldl (fun s m => (step env use s m).1) st

theorem callsFrom_snoc (env : Env K) (use : Use) (st : St K) (ms : List Msg) (m : Msg) :
    callsFrom env use st (ms ++ [m]) = callsFrom env use st ms ++ (step env use (after env use st ms) m).2 := by
  induction ms generalizing st with
  | nil => simp [callsFrom, after]
  | cons a ms ih => simp [callsFrom, ih, after, List.append_assoc]

theorem after_snoc (env : Env K) (use : Use) (st : St K) (ms : List Msg) (m : Msg) :
    after env use st (ms ++ [m]) = (step env use (after env use st ms) m).1 := by simp [after]

theorem submitAll_append {C : Type} (submit : C → Call → Res C Unit) (c : C) (xs ys : List Call) :
    submitAll submit c (xs ++ ys) = (submitAll submit c xs).bind fun _ c' => submitAll submit c' ys := by
  induction xs generalizing c with
  | nil => rfl
  | cons x xs ih =>
    simp only [List.cons_append, submitAll]
    cases submit c x <;> simp [Res.bind, ih]

theorem loop_eq {C : Type} (submit : C → Call → Res C Unit) (env : Env K) (use : Use) (st : St K) (c : C) (ms : List Msg) :
    loop submit env use st c ms = submitAll submit c (callsFrom env use st ms) := by
  induction ms generalizing st c with
  | nil => rfl
  | cons m ms ih =>
    rw [loop, callsFrom, submitAll_append]
    congr 1
    funext _ c'
    exact ih _ _

/-! ### The specification on longer lists -/

/-- state of a corrector after a stream. -/
noncomputable def feed (env : Env K) (k : K) (xs : List (ℝ × ℝ)) : K := xs.foldl (fun k x => (env.correct k x.1 x.2).1) k

theorem stampsFrom_snoc (env : Env K) (k : K) (xs : List (ℝ × ℝ)) (x : ℝ × ℝ) :
    stampsFrom env k (xs ++ [x]) = stampsFrom env k xs ++ [(stampWith env (feed env k xs) x.1 x.2).2] := by
  induction xs generalizing k with
  | nil => rfl
  | cons y ys ih => simp [stampsFrom, ih, feed]

theorem feed_snoc (env : Env K) (k : K) (xs : List (ℝ × ℝ)) (x : ℝ × ℝ) :
    feed env k (xs ++ [x]) = (stampWith env (feed env k xs) x.1 x.2).1 := by simp [feed, stampWith]

theorem stampsFrom_length (env : Env K) (k : K) (xs : List (ℝ × ℝ)) : (stampsFrom env k xs).length = xs.length := by
  induction xs generalizing k with
  | nil => rfl
  | cons y ys ih => simp [stampsFrom, ih]

theorem latest_snoc (ms : List Msg) (m : Msg) :
    latest (ms ++ [m]) = match m with | .vnp p => some p | _ => latest ms := by
  cases m <;> simp [latest, List.filterMap_append]

theorem usable_snoc (ms : List Msg) (m : Msg) :
    usable (ms ++ [m]) = usable ms ++
      match m with | .vns s => ((latest ms).map fun p => (s, p)).toList | _ => [] := by
  unfold usable
  rw [List.length_append, List.length_singleton, List.range_succ, List.filterMap_append]
  congr 1
  · apply List.filterMap_congr
    intro i hi
    have hi' : i < ms.length := List.mem_range.1 hi
    rw [List.getElem?_append_left hi', List.take_append_of_le_length (Nat.le_of_lt hi')]
  · simp only [List.filterMap_cons, List.filterMap_nil, List.getElem?_append_right (Nat.le_refl _), Nat.sub_self,
      List.getElem?_cons_zero, List.take_left']
    cases m <;> simp only
    rename_i s
    cases latest ms <;> simp

theorem consecutive_snoc {α : Type} (l : List α) (x : α) :
    consecutive (l ++ [x]) = consecutive l ++ (l.getLast?.map fun a => (a, x)).toList := by
  induction l with
  | nil => rfl
  | cons a l ih =>
    cases l with
    | nil => rfl
    | cons b l =>
      rw [List.cons_append, List.cons_append, consecutive, ← List.cons_append, ih, consecutive, List.cons_append]
      simp [List.getLast?_cons]

theorem mapFrame_snoc_some (ms : List Msg) (m : Msg) (h : usable ms ≠ []) : mapFrame (ms ++ [m]) = mapFrame ms := by
  unfold mapFrame
  rw [usable_snoc]
  cases hu : usable ms with
  | nil => exact absurd hu h
  | cons a l => simp

/-- everything known about the variables after the messages `ms`. -/
structure Knows (env : Env K) (use : Use) (ms : List Msg) (st : St K) : Prop where
  vnp : st.lastVnp = latest ms
  first : st.first = (usable ms).isEmpty
  frame : st.m_T_e = mapFrame ms
  kVns : st.kVns = feed env env.corr0 ((usable ms).map fun x => (nsec x.1.time1, x.1.stamp))
  kFw : use.fws = true → st.kFw = feed env env.corr0 ((frontMsgs ms).map fun x => (x.2.2.1, x.2.2.2))
  kRw : use.rws = true → st.kRw = feed env env.corr0 ((rearMsgs ms).map fun x => (x.2.2.1, x.2.2.2))
  kSt : use.st = true → st.kSt = feed env env.corr0 ((steerMsgs ms).map fun x => (x.2.1, x.2.2))
  kDmi : use.dmi = true → st.kDmi = feed env env.corr0 ((dmiPairs ms).map fun x => (nsec x.2.2.1, x.2.2.2))
  lastD : use.dmi = true → ((dmiMsgs ms).getLast? = none ∧ st.lastTime = -1) ∨
    ∃ a, (dmiMsgs ms).getLast? = some a ∧ st.lastTime = a.2.1 ∧ st.lastDist = a.1

theorem zip_snoc {α β : Type} (l : List α) (ts : List β) (a : α) (t : β) (h : ts.length = l.length) :
    List.zip (l ++ [a]) (ts ++ [t]) = List.zip l ts ++ [(a, t)] := by
  rw [List.zip_append h.symm]; rfl

theorem calls_spec (env : Env K) (use : Use) (ms : List Msg) :
    CallsAre env use ms (callsFrom env use (St.init env) ms) ∧ Knows env use ms (after env use (St.init env) ms) := by
  induction ms using List.reverseRecOn with
  | nil =>
    refine ⟨⟨?_, ?_, ?_, ?_, ?_, ?_⟩, ⟨rfl, rfl, rfl, rfl, fun _ => rfl, fun _ => rfl, fun _ => rfl, ?_, ?_⟩⟩
    · simp [callsFrom, usable, stampsFrom]
    · simp [callsFrom, usable, stampsFrom]
    · simp [callsFrom, frontMsgs, stampsFrom]
    · simp [callsFrom, rearMsgs, stampsFrom]
    · simp [callsFrom, steerMsgs, stampsFrom]
    · simp [callsFrom, dmiPairs, dmiMsgs, consecutive, stampsFrom]
    · intro _; simp [after, St.init, dmiPairs, dmiMsgs, consecutive, feed]
    · intro _; left; exact ⟨rfl, rfl⟩
  | append_singleton ms m ih =>
    obtain ⟨hc, hk⟩ := ih
    rw [callsFrom_snoc, after_snoc]
    generalize after env use (St.init env) ms = st at hk
    generalize callsFrom env use (St.init env) ms = cs at hc
    have fm : ∀ {β : Type} (f : Msg → Option β), (ms ++ [m]).filterMap f = ms.filterMap f ++ (f m).toList := by
      intro β f
      rw [List.filterMap_append]
      cases h : f m <;> simp [h]
    cases m with
    | vnp p =>
      have hu : usable (ms ++ [.vnp p]) = usable ms := by rw [usable_snoc]; simp
      have hm : mapFrame (ms ++ [.vnp p]) = mapFrame ms := by unfold mapFrame; rw [hu]
      have hf : frontMsgs (ms ++ [.vnp p]) = frontMsgs ms := by unfold frontMsgs; rw [fm]; simp
      have hr : rearMsgs (ms ++ [.vnp p]) = rearMsgs ms := by unfold rearMsgs; rw [fm]; simp
      have hs : steerMsgs (ms ++ [.vnp p]) = steerMsgs ms := by unfold steerMsgs; rw [fm]; simp
      have hd : dmiMsgs (ms ++ [.vnp p]) = dmiMsgs ms := by unfold dmiMsgs; rw [fm]; simp
      have hp : dmiPairs (ms ++ [.vnp p]) = dmiPairs ms := by unfold dmiPairs; rw [hd]
      refine ⟨⟨?_, ?_, ?_, ?_, ?_, ?_⟩, ⟨?_, ?_, ?_, ?_, ?_, ?_, ?_, ?_, ?_⟩⟩ <;>
        simp only [step, List.append_nil, hu, hm, hf, hr, hs, hd, hp]
      · exact hc.pose
      · exact hc.vel
      · exact hc.front
      · exact hc.rear
      · exact hc.steer
      · exact hc.dmi
      · rw [latest_snoc]
      · exact hk.first
      · exact hk.frame
      · exact hk.kVns
      · exact hk.kFw
      · exact hk.kRw
      · exact hk.kSt
      · exact hk.kDmi
      · exact hk.lastD
    | vns s =>
      have hf : frontMsgs (ms ++ [.vns s]) = frontMsgs ms := by unfold frontMsgs; rw [fm]; simp
      have hr : rearMsgs (ms ++ [.vns s]) = rearMsgs ms := by unfold rearMsgs; rw [fm]; simp
      have hs : steerMsgs (ms ++ [.vns s]) = steerMsgs ms := by unfold steerMsgs; rw [fm]; simp
      have hd : dmiMsgs (ms ++ [.vns s]) = dmiMsgs ms := by unfold dmiMsgs; rw [fm]; simp
      have hp : dmiPairs (ms ++ [.vns s]) = dmiPairs ms := by unfold dmiPairs; rw [hd]
      have hl : latest (ms ++ [.vns s]) = latest ms := latest_snoc _ _
      cases hv : latest ms with
      | none =>
        have hu : usable (ms ++ [.vns s]) = usable ms := by rw [usable_snoc]; simp [hv]
        have hm : mapFrame (ms ++ [.vns s]) = mapFrame ms := by unfold mapFrame; rw [hu]
        have hst : step env use st (.vns s) = (st, []) := by simp [step, hk.vnp, hv]
        rw [hst]
        refine ⟨⟨?_, ?_, ?_, ?_, ?_, ?_⟩, ⟨?_, ?_, ?_, ?_, ?_, ?_, ?_, ?_, ?_⟩⟩ <;>
          simp only [List.append_nil, hu, hm, hf, hr, hs, hd, hp, hl]
        · exact hc.pose
        · exact hc.vel
        · exact hc.front
        · exact hc.rear
        · exact hc.steer
        · exact hc.dmi
        · exact hk.vnp
        · exact hk.first
        · exact hk.frame
        · exact hk.kVns
        · exact hk.kFw
        · exact hk.kRw
        · exact hk.kSt
        · exact hk.kDmi
        · exact hk.lastD
      | some p =>
        have hu : usable (ms ++ [.vns s]) = usable ms ++ [(s, p)] := by rw [usable_snoc]; simp [hv]
        have hfr : (if st.first then originOf s else st.m_T_e) = mapFrame (ms ++ [.vns s]) := by
          rw [hk.first]
          cases he : usable ms with
          | nil => simp [mapFrame, hu, he]
          | cons a l =>
            rw [mapFrame_snoc_some _ _ (by rw [he]; simp), ← hk.frame]; simp
        have hpos : (usable ms).map (fun x => poseOf env (mapFrame (ms ++ [.vns s])) x.1 x.2) =
            (usable ms).map (fun x => poseOf env (mapFrame ms) x.1 x.2) := by
          cases he : usable ms with
          | nil => rfl
          | cons a l => rw [mapFrame_snoc_some _ _ (by rw [he]; simp)]
        have hst : step env use st (.vns s) =
            ({ st with m_T_e := mapFrame (ms ++ [.vns s]), first := false,
                       kVns := (stampWith env st.kVns (nsec s.time1) s.stamp).1 },
             [.pose (poseOf env (mapFrame (ms ++ [.vns s])) s p) (stampWith env st.kVns (nsec s.time1) s.stamp).2,
              .vel (velOf env s p) (stampWith env st.kVns (nsec s.time1) s.stamp).2]) := by
          simp only [step, hk.vnp, hv, hfr]
        rw [hst]
        refine ⟨⟨?_, ?_, ?_, ?_, ?_, ?_⟩, ⟨?_, ?_, ?_, ?_, ?_, ?_, ?_, ?_, ?_⟩⟩ <;>
          simp only [hf, hr, hs, hd, hp, hl]
        · rw [List.filterMap_append, hc.pose, hu, List.map_append, List.map_append, hpos, List.map_singleton,
            List.map_singleton, stampsFrom_snoc, zip_snoc _ _ _ _ (by simp [stampsFrom_length]), ← hk.kVns]
          simp [Call.pose?]
        · rw [List.filterMap_append, hc.vel, hu, List.map_append, List.map_append, List.map_singleton,
            List.map_singleton, stampsFrom_snoc, zip_snoc _ _ _ _ (by simp [stampsFrom_length]), ← hk.kVns]
          rfl
        · rw [List.filterMap_append, hc.front]; simp [Call.front?]
        · rw [List.filterMap_append, hc.rear]; simp [Call.rear?]
        · rw [List.filterMap_append, hc.steer]; simp [Call.steer?]
        · rw [List.filterMap_append, hc.dmi]; simp [Call.dmi?]
        · exact hk.vnp
        · simp [hu]
        · rw [hu, List.map_append, List.map_singleton, feed_snoc, ← hk.kVns]
        · exact hk.kFw
        · exact hk.kRw
        · exact hk.kSt
        · exact hk.kDmi
        · exact hk.lastD
    | fws l r seq stamp =>
      have hu : usable (ms ++ [.fws l r seq stamp]) = usable ms := by rw [usable_snoc]; simp
      have hm : mapFrame (ms ++ [.fws l r seq stamp]) = mapFrame ms := by unfold mapFrame; rw [hu]
      have hf : frontMsgs (ms ++ [.fws l r seq stamp]) = frontMsgs ms ++ [(l, r, seq, stamp)] := by
        unfold frontMsgs; rw [fm]; simp
      have hr : rearMsgs (ms ++ [.fws l r seq stamp]) = rearMsgs ms := by unfold rearMsgs; rw [fm]; simp
      have hs : steerMsgs (ms ++ [.fws l r seq stamp]) = steerMsgs ms := by unfold steerMsgs; rw [fm]; simp
      have hd : dmiMsgs (ms ++ [.fws l r seq stamp]) = dmiMsgs ms := by unfold dmiMsgs; rw [fm]; simp
      have hp : dmiPairs (ms ++ [.fws l r seq stamp]) = dmiPairs ms := by unfold dmiPairs; rw [hd]
      have hl : latest (ms ++ [.fws l r seq stamp]) = latest ms := latest_snoc _ _
      by_cases hon : use.fws = true
      · have hst : step env use st (.fws l r seq stamp) = ({ st with kFw := (stampWith env st.kFw seq stamp).1 },
            [.front l r (stampWith env st.kFw seq stamp).2]) := by simp [step, hon]
        rw [hst]
        have hcf := hc.front
        rw [if_pos hon] at hcf
        refine ⟨⟨?_, ?_, ?_, ?_, ?_, ?_⟩, ⟨?_, ?_, ?_, ?_, ?_, ?_, ?_, ?_, ?_⟩⟩ <;>
          simp only [hu, hm, hr, hs, hd, hp, hl]
        · rw [List.filterMap_append, hc.pose]; simp [Call.pose?]
        · rw [List.filterMap_append, hc.vel]; simp [Call.vel?]
        · rw [if_pos hon, List.filterMap_append, hcf, hf, List.map_append, List.map_append, List.map_singleton,
            List.map_singleton, stampsFrom_snoc, zip_snoc _ _ _ _ (by simp [stampsFrom_length]), ← hk.kFw hon]
          simp [Call.front?]
        · rw [List.filterMap_append, hc.rear]; simp [Call.rear?]
        · rw [List.filterMap_append, hc.steer]; simp [Call.steer?]
        · rw [List.filterMap_append, hc.dmi]; simp [Call.dmi?]
        · exact hk.vnp
        · exact hk.first
        · exact hk.frame
        · exact hk.kVns
        · intro _; rw [hf, List.map_append, List.map_singleton, feed_snoc, ← hk.kFw hon]
        · exact hk.kRw
        · exact hk.kSt
        · exact hk.kDmi
        · exact hk.lastD
      · have hst : step env use st (.fws l r seq stamp) = (st, []) := by simp [step, hon]
        rw [hst]
        have hcf := hc.front
        rw [if_neg hon] at hcf
        refine ⟨⟨?_, ?_, ?_, ?_, ?_, ?_⟩, ⟨?_, ?_, ?_, ?_, ?_, ?_, ?_, ?_, ?_⟩⟩ <;>
          simp only [hu, hm, hr, hs, hd, hp, hl, List.append_nil]
        · exact hc.pose
        · exact hc.vel
        · rw [if_neg hon]; exact hcf
        · exact hc.rear
        · exact hc.steer
        · exact hc.dmi
        · exact hk.vnp
        · exact hk.first
        · exact hk.frame
        · exact hk.kVns
        · intro h; exact absurd h hon
        · exact hk.kRw
        · exact hk.kSt
        · exact hk.kDmi
        · exact hk.lastD
    | rws l r seq stamp =>
      have hu : usable (ms ++ [.rws l r seq stamp]) = usable ms := by rw [usable_snoc]; simp
      have hm : mapFrame (ms ++ [.rws l r seq stamp]) = mapFrame ms := by unfold mapFrame; rw [hu]
      have hf : rearMsgs (ms ++ [.rws l r seq stamp]) = rearMsgs ms ++ [(l, r, seq, stamp)] := by
        unfold rearMsgs; rw [fm]; simp
      have hr : frontMsgs (ms ++ [.rws l r seq stamp]) = frontMsgs ms := by unfold frontMsgs; rw [fm]; simp
      have hs : steerMsgs (ms ++ [.rws l r seq stamp]) = steerMsgs ms := by unfold steerMsgs; rw [fm]; simp
      have hd : dmiMsgs (ms ++ [.rws l r seq stamp]) = dmiMsgs ms := by unfold dmiMsgs; rw [fm]; simp
      have hp : dmiPairs (ms ++ [.rws l r seq stamp]) = dmiPairs ms := by unfold dmiPairs; rw [hd]
      have hl : latest (ms ++ [.rws l r seq stamp]) = latest ms := latest_snoc _ _
      by_cases hon : use.rws = true
      · have hst : step env use st (.rws l r seq stamp) = ({ st with kRw := (stampWith env st.kRw seq stamp).1 },
            [.rear l r (stampWith env st.kRw seq stamp).2]) := by simp [step, hon]
        rw [hst]
        have hcf := hc.rear
        rw [if_pos hon] at hcf
        refine ⟨⟨?_, ?_, ?_, ?_, ?_, ?_⟩, ⟨?_, ?_, ?_, ?_, ?_, ?_, ?_, ?_, ?_⟩⟩ <;>
          simp only [hu, hm, hr, hs, hd, hp, hl]
        · rw [List.filterMap_append, hc.pose]; simp [Call.pose?]
        · rw [List.filterMap_append, hc.vel]; simp [Call.vel?]
        · rw [List.filterMap_append, hc.front]; simp [Call.front?]
        · rw [if_pos hon, List.filterMap_append, hcf, hf, List.map_append, List.map_append, List.map_singleton,
            List.map_singleton, stampsFrom_snoc, zip_snoc _ _ _ _ (by simp [stampsFrom_length]), ← hk.kRw hon]
          simp [Call.rear?]
        · rw [List.filterMap_append, hc.steer]; simp [Call.steer?]
        · rw [List.filterMap_append, hc.dmi]; simp [Call.dmi?]
        · exact hk.vnp
        · exact hk.first
        · exact hk.frame
        · exact hk.kVns
        · exact hk.kFw
        · intro _; rw [hf, List.map_append, List.map_singleton, feed_snoc, ← hk.kRw hon]
        · exact hk.kSt
        · exact hk.kDmi
        · exact hk.lastD
      · have hst : step env use st (.rws l r seq stamp) = (st, []) := by simp [step, hon]
        rw [hst]
        have hcf := hc.rear
        rw [if_neg hon] at hcf
        refine ⟨⟨?_, ?_, ?_, ?_, ?_, ?_⟩, ⟨?_, ?_, ?_, ?_, ?_, ?_, ?_, ?_, ?_⟩⟩ <;>
          simp only [hu, hm, hr, hs, hd, hp, hl, List.append_nil]
        · exact hc.pose
        · exact hc.vel
        · exact hc.front
        · rw [if_neg hon]; exact hcf
        · exact hc.steer
        · exact hc.dmi
        · exact hk.vnp
        · exact hk.first
        · exact hk.frame
        · exact hk.kVns
        · exact hk.kFw
        · intro h; exact absurd h hon
        · exact hk.kSt
        · exact hk.kDmi
        · exact hk.lastD
    | st v seq stamp =>
      have hu : usable (ms ++ [.st v seq stamp]) = usable ms := by rw [usable_snoc]; simp
      have hm : mapFrame (ms ++ [.st v seq stamp]) = mapFrame ms := by unfold mapFrame; rw [hu]
      have hf : steerMsgs (ms ++ [.st v seq stamp]) = steerMsgs ms ++ [(v, seq, stamp)] := by
        unfold steerMsgs; rw [fm]; simp
      have hr : frontMsgs (ms ++ [.st v seq stamp]) = frontMsgs ms := by unfold frontMsgs; rw [fm]; simp
      have hs : rearMsgs (ms ++ [.st v seq stamp]) = rearMsgs ms := by unfold rearMsgs; rw [fm]; simp
      have hd : dmiMsgs (ms ++ [.st v seq stamp]) = dmiMsgs ms := by unfold dmiMsgs; rw [fm]; simp
      have hp : dmiPairs (ms ++ [.st v seq stamp]) = dmiPairs ms := by unfold dmiPairs; rw [hd]
      have hl : latest (ms ++ [.st v seq stamp]) = latest ms := latest_snoc _ _
      by_cases hon : use.st = true
      · have hst : step env use st (.st v seq stamp) = ({ st with kSt := (stampWith env st.kSt seq stamp).1 },
            [.steer v (stampWith env st.kSt seq stamp).2]) := by simp [step, hon]
        rw [hst]
        have hcf := hc.steer
        rw [if_pos hon] at hcf
        refine ⟨⟨?_, ?_, ?_, ?_, ?_, ?_⟩, ⟨?_, ?_, ?_, ?_, ?_, ?_, ?_, ?_, ?_⟩⟩ <;>
          simp only [hu, hm, hr, hs, hd, hp, hl]
        · rw [List.filterMap_append, hc.pose]; simp [Call.pose?]
        · rw [List.filterMap_append, hc.vel]; simp [Call.vel?]
        · rw [List.filterMap_append, hc.front]; simp [Call.front?]
        · rw [List.filterMap_append, hc.rear]; simp [Call.rear?]
        · rw [if_pos hon, List.filterMap_append, hcf, hf, List.map_append, List.map_append, List.map_singleton,
            List.map_singleton, stampsFrom_snoc, zip_snoc _ _ _ _ (by simp [stampsFrom_length]), ← hk.kSt hon]
          simp [Call.steer?]
        · rw [List.filterMap_append, hc.dmi]; simp [Call.dmi?]
        · exact hk.vnp
        · exact hk.first
        · exact hk.frame
        · exact hk.kVns
        · exact hk.kFw
        · exact hk.kRw
        · intro _; rw [hf, List.map_append, List.map_singleton, feed_snoc, ← hk.kSt hon]
        · exact hk.kDmi
        · exact hk.lastD
      · have hst : step env use st (.st v seq stamp) = (st, []) := by simp [step, hon]
        rw [hst]
        have hcf := hc.steer
        rw [if_neg hon] at hcf
        refine ⟨⟨?_, ?_, ?_, ?_, ?_, ?_⟩, ⟨?_, ?_, ?_, ?_, ?_, ?_, ?_, ?_, ?_⟩⟩ <;>
          simp only [hu, hm, hr, hs, hd, hp, hl, List.append_nil]
        · exact hc.pose
        · exact hc.vel
        · exact hc.front
        · exact hc.rear
        · rw [if_neg hon]; exact hcf
        · exact hc.dmi
        · exact hk.vnp
        · exact hk.first
        · exact hk.frame
        · exact hk.kVns
        · exact hk.kFw
        · exact hk.kRw
        · intro h; exact absurd h hon
        · exact hk.kDmi
        · exact hk.lastD
    | dmi dist time1 stamp =>
      have hu : usable (ms ++ [.dmi dist time1 stamp]) = usable ms := by rw [usable_snoc]; simp
      have hm : mapFrame (ms ++ [.dmi dist time1 stamp]) = mapFrame ms := by unfold mapFrame; rw [hu]
      have hf : frontMsgs (ms ++ [.dmi dist time1 stamp]) = frontMsgs ms := by unfold frontMsgs; rw [fm]; simp
      have hr : rearMsgs (ms ++ [.dmi dist time1 stamp]) = rearMsgs ms := by unfold rearMsgs; rw [fm]; simp
      have hs : steerMsgs (ms ++ [.dmi dist time1 stamp]) = steerMsgs ms := by unfold steerMsgs; rw [fm]; simp
      have hd : dmiMsgs (ms ++ [.dmi dist time1 stamp]) = dmiMsgs ms ++ [(dist, time1, stamp)] := by
        unfold dmiMsgs; rw [fm]; simp
      have hl : latest (ms ++ [.dmi dist time1 stamp]) = latest ms := latest_snoc _ _
      by_cases hon : use.dmi = true
      · have hcf := hc.dmi
        rw [if_pos hon] at hcf
        have base : ∀ (st' : St K) (cs' : List Call), st'.lastVnp = st.lastVnp → st'.first = st.first → st'.m_T_e = st.m_T_e →
            st'.kVns = st.kVns → st'.kFw = st.kFw → st'.kRw = st.kRw → st'.kSt = st.kSt → st'.lastTime = time1 →
            st'.lastDist = dist → cs'.filterMap Call.pose? = [] → cs'.filterMap Call.vel? = [] →
            cs'.filterMap Call.front? = [] → cs'.filterMap Call.rear? = [] → cs'.filterMap Call.steer? = [] →
            (cs ++ cs').filterMap Call.dmi? = List.zip ((dmiPairs (ms ++ [.dmi dist time1 stamp])).map fun x => dmiSpeed x.1 x.2)
              (stampsFrom env env.corr0 ((dmiPairs (ms ++ [.dmi dist time1 stamp])).map fun x => (nsec x.2.2.1, x.2.2.2))) →
            st'.kDmi = feed env env.corr0
              ((dmiPairs (ms ++ [.dmi dist time1 stamp])).map fun x => (nsec x.2.2.1, x.2.2.2)) →
            CallsAre env use (ms ++ [.dmi dist time1 stamp]) (cs ++ cs') ∧
              Knows env use (ms ++ [.dmi dist time1 stamp]) st' := by
          intro st' cs' h1 h2 h3 h4 h5 h6 h7 h8 h9 c1 c2 c3 c4 c5 c6 h10
          refine ⟨⟨?_, ?_, ?_, ?_, ?_, ?_⟩, ⟨?_, ?_, ?_, ?_, ?_, ?_, ?_, ?_, ?_⟩⟩ <;>
            try simp only [hu, hm, hf, hr, hs, hl]
          · rw [List.filterMap_append, hc.pose, c1, List.append_nil]
          · rw [List.filterMap_append, hc.vel, c2, List.append_nil]
          · rw [List.filterMap_append, hc.front, c3, List.append_nil]
          · rw [List.filterMap_append, hc.rear, c4, List.append_nil]
          · rw [List.filterMap_append, hc.steer, c5, List.append_nil]
          · rw [if_pos hon]; exact c6
          · rw [h1]; exact hk.vnp
          · rw [h2]; exact hk.first
          · rw [h3]; exact hk.frame
          · rw [h4]; exact hk.kVns
          · rw [h5]; exact hk.kFw
          · rw [h6]; exact hk.kRw
          · rw [h7]; exact hk.kSt
          · intro _; exact h10
          · intro _; right; exact ⟨(dist, time1, stamp), by rw [hd]; simp, h8, h9⟩
        rcases hk.lastD hon with ⟨hn, ht⟩ | ⟨a, ha, ht, hdist⟩
        · have hp : dmiPairs (ms ++ [.dmi dist time1 stamp]) = dmiPairs ms := by
            unfold dmiPairs; rw [hd, consecutive_snoc, hn]; simp
          have hst : step env use st (.dmi dist time1 stamp) = ({ st with lastTime := time1, lastDist := dist }, []) := by
            simp [step, hon, ht]
          rw [hst]
          apply base <;> first | rfl | skip
          · rw [List.append_nil, hp]; exact hcf
          · rw [hp]; exact hk.kDmi hon
        · by_cases hm1 : a.2.1 = -1
          · have hp : dmiPairs (ms ++ [.dmi dist time1 stamp]) = dmiPairs ms := by
              unfold dmiPairs; rw [hd, consecutive_snoc, ha]; simp [hm1]
            have hst : step env use st (.dmi dist time1 stamp) = ({ st with lastTime := time1, lastDist := dist }, []) := by
              simp [step, hon, ht, hm1]
            rw [hst]
            apply base <;> first | rfl | skip
            · rw [List.append_nil, hp]; exact hcf
            · rw [hp]; exact hk.kDmi hon
          · have hp : dmiPairs (ms ++ [.dmi dist time1 stamp]) = dmiPairs ms ++ [(a, (dist, time1, stamp))] := by
              unfold dmiPairs; rw [hd, consecutive_snoc, ha]; simp [hm1]
            have hsp : (if time1 - st.lastTime = 0 then none else some ((dist - st.lastDist) / (time1 - st.lastTime))) =
                dmiSpeed a (dist, time1, stamp) := by
              unfold dmiSpeed
              rw [ht, hdist]
              by_cases h : time1 = a.2.1
              · rw [if_pos (by rw [h, sub_self]), if_pos h]
              · rw [if_neg (by rw [sub_eq_zero]; exact h), if_neg h]
            have hst : step env use st (.dmi dist time1 stamp) =
                ({ st with kDmi := (stampWith env st.kDmi (nsec time1) stamp).1, lastTime := time1, lastDist := dist },
                 [.dmi (dmiSpeed a (dist, time1, stamp)) (stampWith env st.kDmi (nsec time1) stamp).2]) := by
              rw [← hsp]
              simp only [step, hon, if_true]
              rw [if_pos (by rw [ht]; exact hm1)]
            rw [hst]
            apply base <;> first | rfl | skip
            · rw [List.filterMap_append, hcf, hp, List.map_append, List.map_append, List.map_singleton, List.map_singleton,
                stampsFrom_snoc, zip_snoc _ _ _ _ (by simp [stampsFrom_length]), ← hk.kDmi hon]
              simp [Call.dmi?]
            · rw [hp, List.map_append, List.map_singleton, feed_snoc, ← hk.kDmi hon]
      · have hst : step env use st (.dmi dist time1 stamp) = (st, []) := by simp [step, hon]
        rw [hst]
        have hcf := hc.dmi
        rw [if_neg hon] at hcf
        refine ⟨⟨?_, ?_, ?_, ?_, ?_, ?_⟩, ⟨?_, ?_, ?_, ?_, ?_, ?_, ?_, ?_, ?_⟩⟩ <;>
          simp only [hu, hm, hf, hr, hs, hl, List.append_nil]
        · exact hc.pose
        · exact hc.vel
        · exact hc.front
        · exact hc.rear
        · exact hc.steer
        · rw [if_neg hon]; exact hcf
        · exact hk.vnp
        · exact hk.first
        · exact hk.frame
        · exact hk.kVns
        · exact hk.kFw
        · exact hk.kRw
        · exact hk.kSt
        · intro h; exact absurd h hon
        · intro h; exact absurd h hon

end CarMain
end Verif
