#!/usr/bin/env python3
"""Mutations of the car predictions, kinematics and programs: writes the JSON list for mutate.py."""
import json,sys
F="Verif/Model/CarPredict.lean"
M=[]
def a(d,old,new,claim,**k): M.append(dict(file=F,**{"def":d,"old":old,"new":new,"claim":claim},**k))
a("push","l.vals ++ [(t, v)]","(t, v) :: l.vals","C103 order of predictions")
a("push","l.errs ++ [err]","[err]","C103 errors kept")
a("push","l.errs2 ++ [sr]","l.errs2 ++ [sr + 1]","C103 squared errors")
a("predictPoses","(l.push m.t [(ev (.pose m)).1]","(l.push (m.t + 1) [(ev (.pose m)).1]","C103 pose stamps")
a("predictPoses","(ev (.pose m)).2.1 (ev (.pose m)).2.2)","(ev (.vel m)).2.1 (ev (.pose m)).2.2)","C103 pose errors")
a("predictVelocities","if lo > m.t ∨ hi < m.t then","if lo ≥ m.t ∨ hi < m.t then","C103 velocity gate boundary")
a("predictVelocities","if lo > m.t ∨ hi < m.t then","if lo > m.t then","C103 velocity gate")
a("predictDMI","(l.push (d + m.t) [r.1] r.2.1 r.2.2)","(l.push m.t [r.1] r.2.1 r.2.2)","C103 delayed stamp",nth=0)
a("predictDMI","if !inSpan lo hi d o.delayBound m then predictDMI ev o lo hi d ms l\n    else\n","","C103 dmi gate")
a("predictDMI","(.wheel m false m.l o.dmiVar false)","(.wheel m false m.l o.flwVar false)","C103 dmi variance")
a("predictDMI","(.wheel m false m.l o.dmiVar false)","(.wheel m false m.l o.dmiVar true)","C103 dmi term")
a("predictFront","if m.l < o.cutoff ∨ m.r < o.cutoff then predictFront","if m.l < o.cutoff ∧ m.r < o.cutoff then predictFront","C103 cutoff")
a("predictFront","else if speed (d + m.t) < 0 then predictFront","else if speed m.t < 0 then predictFront","C103 reversing at delayed time")
a("predictFront","else if speed (d + m.t) < 0 then predictFront","else if speed (d + m.t) ≤ 0 then predictFront","C103 reversing boundary")
a("predictFront","(.wheel m true m.r o.frwVar true)","(.wheel m true m.l o.frwVar true)","C103 right wheel value")
a("predictFront","[a.1, b.1] (a.2.1 ++ b.2.1) (a.2.2 + b.2.2))\n\n/-- `predictRear","[b.1, a.1] (a.2.1 ++ b.2.1) (a.2.2 + b.2.2))\n\n/-- `predictRear","C103 left before right")
a("predictFront","[a.1, b.1] (a.2.1 ++ b.2.1) (a.2.2 + b.2.2))\n\n/-- `predictRear","[a.1, b.1] (b.2.1 ++ a.2.1) (a.2.2 + b.2.2))\n\n/-- `predictRear","C103 error order")
a("predictRear","(.wheel m true m.r o.frwVar false)","(.wheel m true m.r o.rrwVar false)","C103 rear uses front variance")
a("predictRear","(.wheel m false m.l o.flwVar false)","(.wheel m false m.l o.flwVar true)","C103 rear wheel term")
a("predictRear","(a.2.1 ++ b.2.1) (a.2.2 + b.2.2))\n\n/-- `predictSteering","(a.2.1 ++ b.2.1) a.2.2)\n\n/-- `predictSteering","C103 squared error sum")
a("predictRear","else if speed (d + m.t) < 0 then predictRear ev o lo hi d speed ms l\n    ","","C103 rear reversing gate")
a("predictSteering","< o.linTol then","≤ o.linTol then","C103 steering boundary")
a("predictSteering","if |axle (d + m.t)| <","if axle (d + m.t) <","C103 steering sign")
a("predictSteering","m.l o.steerVar)","m.r o.steerVar)","C103 steering value")
a("predict","(env.delay s.est .front) (env.speed","(env.delay s.est .rear) (env.speed","C103 delay of front wheels")
a("predict","predictVelocities ev lo hi (s.buf .vel) (p .vel)","predictVelocities ev lo hi (s.buf .vel) (p .pose)","C103 list of velocities")
a("predict","(s.buf .rear) (p .rear)","(s.buf .front) (p .rear)","C103 buffer of rear wheels")
a("predict","let hi := tMax (s.buf .pose)","let hi := tMax (s.buf .vel)","C103 span of poses")
a("predict","| some ex => .throw ex p","| some ex => .throw ex .empty","C103 exception keeps predictions")
a("predict","| none => .ub\n  | some segs","| none => .ok () p\n  | some segs","C103 no pose undefined")
a("predict","(env.axleSpeed s.est (s.buf .pose)) (s.buf .steer)","(env.speed s.est (s.buf .pose)) (s.buf .steer)","C103 steering uses axle speed")
a("Preds.empty","fun _ => ⟨[], [], []⟩","fun _ => ⟨[], [], [0]⟩","C103 empty")
F="Verif/Model/CarKin.lean"
a("bodyVel","s.R.transpose *ᵥ s.v","s.R *ᵥ s.v","C104 body velocity")
a("bodyOm","s.R.transpose *ᵥ (-s.av)","s.R.transpose *ᵥ s.av","C104 angular velocity sign")
a("bodyOm","s.R.transpose *ᵥ (-s.av)","s.R *ᵥ (-s.av)","C104 angular velocity frame")
a("pointVel","bodyVel s + bodyOm s ⨯₃ c","bodyVel s + c ⨯₃ bodyOm s","C104 lever arm")
a("dmiVel","def dmiVel (o : Odo) (s : Motion) : V3 := pointVel s (o.e_r •","def dmiVel (o : Odo) (s : Motion) : V3 := pointVel s (o.e_f •","C104 dmi at left rear wheel")
a("dmiVel","def dmiVel (o : Odo) (s : Motion) : V3 := pointVel s (o.e_r • ![0","def dmiVel (o : Odo) (s : Motion) : V3 := pointVel s (o.e_r • -![0","C104 dmi at left wheel")
a("rlVel","def rlVel (o : Odo) (s : Motion) : V3 := pointVel s (o.e_r • ![0, 1, 0])","def rlVel (o : Odo) (s : Motion) : V3 := pointVel s (o.e_r • ![1, 0, 0])","C104 rear left")
a("rrVel","o.e_r • -![0","o.e_r • ![0","C104 rear right")
a("flVel","(o.L • ![1, 0, 0] + o.e_f","(o.L • ![1, 0, 0] + o.e_r","C104 front left")
a("flVel","(o.L • ![1, 0, 0] + o.e_f • ![0, 1, 0])","(o.e_f • ![0, 1, 0])","C104 front left wheel base")
a("frVel","(o.L • ![1, 0, 0] - o.e_f","(o.L • ![1, 0, 0] + o.e_f","C104 front right")
a("axleVel","pointVel s (o.L • ![1, 0, 0])","pointVel s (o.L • ![0, 1, 0])","C104 axle")
a("sensorVel","o.v_R_r.transpose *ᵥ (bodyVel","o.v_R_r *ᵥ (bodyVel","C104 sensor velocity frame")
a("sensorVel","bodyOm s ⨯₃ o.v_r_vr)","bodyOm s ⨯₃ (-o.v_r_vr))","C104 sensor lever arm")
a("sensorOm","o.v_R_r.transpose *ᵥ bodyOm s","o.v_R_r *ᵥ bodyOm s","C104 sensor rotation rate")
a("sensorPos","p + R *ᵥ o.v_r_vr","p - R *ᵥ o.v_r_vr","C104 sensor position")
a("sensorRot","R * o.v_R_r","o.v_R_r * R","C104 sensor attitude")
a("vehiclePose","m_R_r * o.v_R_r.transpose","m_R_r * o.v_R_r","C104 knots")
a("vehiclePose","m_r_mr - m_R_v *ᵥ","m_r_mr - m_R_r *ᵥ","C104 knots position")
a("dmiPred","o.k_dmi * dmiVel o s 0","dmiVel o s 0","C104 dmi scale")
a("dmiPred","o.k_dmi * dmiVel o s 0","o.k_dmi * dmiVel o s 1","C104 dmi component")
a("rearPred","(o.k_rl * rlVel o s 0, o.k_rr * rrVel o s 0)","(o.k_rl * rlVel o s 0, o.k_rl * rrVel o s 0)","C104 rear scales")
a("frontPred1","(v 1 * v 1 / (v 0 * v 0) + 1)","(v 0 * v 0 / (v 1 * v 1) + 1)","C104 front prediction")
a("frontPred1","v 1 * v 1 / (v 0 * temp))","v 1 * v 1 / temp)","C104 front prediction")
a("frontPred","frontPred1 o.k_fr (frVel o s)","frontPred1 o.k_fr (flVel o s)","C104 front right prediction")
a("steerPred","atan2 (axleVel o s 1) (axleVel o s 0)","atan2 (axleVel o s 0) (axleVel o s 1)","C104 steering prediction")
a("dmiError","wheelErr false m o.k_dmi","wheelErr true m o.k_dmi","C104 dmi error")
a("rearError","wheelErr false r o.k_rr (rrVel o s)","wheelErr false l o.k_rr (rrVel o s)","C104 rear error")
a("frontError","wheelErr true l o.k_fl","wheelErr true l o.k_fr","C104 front error")
a("steerError","steerErr m o.a (axleVel o s)","steerErr m o.a (bodyVel s)","C104 steering error")
a("velError","(sensorVel o s) (sensorOm o s)","(sensorOm o s) (sensorVel o s)","C104 velocity error")
a("reversing","bodyVel s 0 < 0","s.v 0 < 0","C104 reversing")
F="Verif/Model/CarMain.lean"
a("init","-1, -1, true, none","-1, -1, false, none","C105 first")
a("init","-1, -1, true, none","0, -1, true, none","C105 sentinel")
a("rad","x * Real.pi / 180","x * Real.pi / 90","C105 degrees")
a("nsec","x * 1000000000","x * 1000000","C105 seconds")
a("variances","![a * a, b * b, c * c]","![a, b, c]","C105 variances")
a("ecef","(rad s.lat) (rad s.lon) s.alt","(rad s.lon) (rad s.lat) s.alt","C105 ecef")
a("originOf","ecef2enu","ned2ecef","C105 map origin")
a("attitude","![rad s.heading, rad s.pitch, rad s.roll]","![rad s.roll, rad s.pitch, rad s.heading]","C105 attitude")
a("localNed","(rad s.lat) (rad s.lon)\n\n/-- the pose","(rad s.lat) (rad s.lat)\n\n/-- the pose","C105 local frame")
a("poseOf","m_T_e.apply (ecef s)","ecef s","C105 position in the map")
a("poseOf","m_T_e.R * (localNed s).R * attitude env s","(localNed s).R * attitude env s","C105 attitude in the map")
a("poseOf","variances p.north p.east p.down","variances p.east p.north p.down","C105 position variance")
a("poseOf","variances (rad p.heading) (rad p.pitch) (rad p.roll)","variances p.heading p.pitch p.roll","C105 attitude variance")
a("velOf","(attitude env s).transpose","attitude env s","C105 velocity")
a("velOf","variances p.vNorth p.vEast p.vDown","variances p.north p.east p.down","C105 velocity variance")
a("velOf","variances (rad p.roll) (rad p.pitch) (rad p.heading)","variances (rad p.heading) (rad p.pitch) (rad p.roll)","C105 rate variance")
a("velOf","![rad s.omLong, rad s.omTrans, rad s.omDown]","![s.omLong, s.omTrans, s.omDown]","C105 rates in radians")
a("stampWith","(env.correct k dev host).1,","k,","C105 corrector updated")
a("stampWith","roundAway (env.correct k dev host).2","roundAway host","C105 corrected stamp")
a("step","({ st with lastVnp := some p }, [])","(st, [])","C105 performance message")
a("step","| none => (st, [])\n    | some p =>","| none => ({ st with first := false }, [])\n    | some p =>","C105 first solution with performance")
a("step","if st.first then originOf s else st.m_T_e","originOf s","C105 origin only once")
a("step","first := false, kVns","kVns","C105 origin only once")
a("step",".pose (poseOf env m_T_e s p) r.2, .vel (velOf env s p) r.2]",".vel (velOf env s p) r.2, .pose (poseOf env m_T_e s p) r.2]","C105 pose first")
a("step","poseOf env m_T_e s p","poseOf env st.m_T_e s p","C105 origin of the first pose")
a("step","(nsec s.time1) s.stamp","s.time1 s.stamp","C105 device time")
a("step","if use.fws then","if use.rws then","C105 switches")
a("step","stampWith env st.kRw seq stamp","stampWith env st.kFw seq stamp","C105 own corrector")
a("step","({ st with kSt := q.1 }","({ st with kRw := q.1 }","C105 own corrector")
a("step","[.front l r q.2]","[.front r l q.2]","C105 left and right")
a("step","if st.lastTime ≠ -1 then","if st.lastTime ≠ -1 ∧ st.lastDist ≠ -1 then","C105 first distance")
a("step","lastTime := time1, lastDist := dist }, [.dmi","lastTime := time1 }, [.dmi","C105 last distance")
a("step","else ({ st with lastTime := time1, lastDist := dist }, [])","else ({ st with lastTime := time1, lastDist := dist }, [.dmi none 0])","C105 first message no speed")
a("step","if time1 - st.lastTime = 0 then none else some","some","C105 same time no finite speed")
a("step","(dist - st.lastDist) /","(st.lastDist - dist) /","C105 speed")
a("submitAll","(submit c x).bind fun _ c' => submitAll submit c' xs","(submitAll submit c xs).bind fun _ c' => submit c' x","C105 order of calls")
a("loop","loop submit env use (step env use st m).1 c' ms","loop submit env use st c' ms","C105 state threaded")
a("finish","if s.unprocessed then s.addMeasurements env o else .ok () s","s.addMeasurements env o","C105 finish only if unprocessed")
a("finish","if s.unprocessed then s.addMeasurements env o else .ok () s","if s.unprocessed then .ok () s else s.addMeasurements env o","C105 finish")
a("finishAnalysis","if s.unprocessed then CarCal.predict","if !s.unprocessed then CarCal.predict","C105 analysis")
json.dump(M,open(sys.argv[1],"w"),indent=1)
print(len(M))
