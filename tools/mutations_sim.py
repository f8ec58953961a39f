#!/usr/bin/env python3
import json,sys
R=[]
def M(f,d,o,n,c,nth=None,t=None):
    x=dict(file="Verif/Model/%s.lean"%f,old=o,new=n,claim=c); x["def"]=d
    if nth is not None: x["nth"]=nth
    if t: x["tightened"]=t
    R.append(x)
S="SimTD"
M(S,"integrateMotionModel","Vec3.smul dt (T.q.rotate v)","Vec3.smul dt (T.q.inv.rotate v)","C87 moves along the orientation")
M(S,"integrateMotionModel","⟨vqw'.inv, r⟩","⟨vqw', r⟩","C87 orientation")
M(S,"integrateMotionModel","Real.cos (n / 2 * dt)","Real.cos (n * dt)","C87 turn angle")
M(S,"integrateMotionModel","if eps < n then","if n < eps then","C87 small turn rates only are left out")
M(S,"integrateMotionModel","om.z / n * s","om.z * s","C87 unit quaternions")
M(S,"genSineBodyVel2d","(phi - p.phi) / dt","(p.phi - phi) / dt","C87 direction of the turn")
M(S,"genSineBodyVel2d","(rx - p.x) / dt","(rx - p.x)","C86 speed")
M(S,"genSineBodyVel2d","c * vx + s * vy","c * vx - s * vy","C86 projection")
M(S,"genSineBodyVel2d","⟨phi, rx, ry⟩","⟨p.phi, rx, ry⟩","C86 heading of the previous step")
M(S,"genWheelVelocity","Vec3.cross om r","Vec3.cross r om","C86 left and right wheel")
M(S,"body","env.ns p.t_l, p.k_l * wl.x","env.ns p.t_r, p.k_l * wl.x","C86 left delay")
M(S,"body","p.k_l * (wl.x + env.noiseL s.k)","p.k_l * wl.x + env.noiseL s.k","C86 noise before scaling")
M(S,"body","p.k_r * wr.x)]","p.k_r * wl.x)]","C86 right wheel")
M(S,"body","if p.sigma2_l ≤ 0","if p.sigma2_l < 0","C86 zero variance is rejected")
M(S,"body","t := s.t + p.dt, k","t := s.t + p.dt / 2, k","C86 number of steps")
M(S,"body","stamp := s.stamp + env.ns p.dt","stamp := env.ns p.dt","C86 stamps")
M(S,"body","Vec3.add T.r (T.q.rotate p.v_T_p.r)","Vec3.add T.r p.v_T_p.r","C86 pose sensor")
M(S,"body","rwData_n := d2.rwData_n ++","rwData_n := d2.rwData ++","C86 noisy stream")
M(S,"body","env.ns (p.dt * 0.5), pose)","env.ns p.dt, pose)","C86 pose stamp")
M(S,"init","t := p.dt","t := 0","C86 first step")
M(S,"init","v_om_wv := d.v_om_wv ++ [Vec3.zero]","v_om_wv := d.v_om_wv","C86 n+1 velocities")
M(S,"simulate","s.t < p.T","s.t ≤ p.T","C86 number of steps")
M(S,"evalTime","delay + stamp","stamp - delay","C88 delay sign")
M(S,"wheelError","meas - k * v.x","meas - v.x","C88 scale")
M(S,"leftVelocity","⟨0, 1 * b, 0⟩","⟨0, -1 * b, 0⟩","C88 left wheel")
M(S,"rightVelocity","-1 * b","1 * b","C88 right wheel")
M(S,"predictedSpeed","some (k * (v.x / temp","some (k * (v.x * temp","C89 prediction")
M(S,"predictedSpeed","if v.x = 0 then none","if v.x = 0 then some 0","C89 standing wheel")
M(S,"knot","wqp.qplus v_T_p.q.inv","wqp.qplus v_T_p.q","C88 knots")
M(S,"knot","Vec3.sub r (wqv.rotate v_T_p.r)","Vec3.sub r (wqp.rotate v_T_p.r)","C88 knots")
if len(sys.argv)>2 and sys.argv[2]=="ego": R.clear()
S="SimEgo"
M(S,"bestQuat","if qnorm (qadd p c) < qnorm (qsub p c) then qneg c else c","if qnorm (qsub p c) < qnorm (qadd p c) then qneg c else c","C93 closer representative")
M(S,"bestQuat","then qneg c else c","then c else c","C93 sign is never changed")
M(S,"qneg","⟨-c.x, -c.y, -c.z, -c.w⟩","⟨-c.x, -c.y, -c.z, c.w⟩","C93 same rotation")
M(S,"alignSigns","| some p => bestQuat p q]","| some p => bestQuat q p]","C93 same rotation")
M(S,"alignSigns","acc.getLast? with","acc.head? with","C93 consecutive signs")
M(S,"genBody","⟨bestQuat back.q P.q, P.r⟩","⟨P.q, P.r⟩","C92 sign flips")
M(S,"genBody","⟨bestQuat back.q P.q, P.r⟩","⟨bestQuat back.q P.q, back.r⟩","C92 step length")
M(S,"genBody","(s.poses.getLastD (0, p.w_T_v_0)).2","(s.poses.headD (0, p.w_T_v_0)).2","C92 step length")
M(S,"genBody","else ⟨g.1, 0, 0⟩","else ⟨g.1, g.1, 0⟩","C92 step length")
M(S,"genBody","t := s.t + p.dt, k := s.k + 1 }","t := s.t + 2 * p.dt, k := s.k + 1 }","C90 number of steps",0)
M(S,"genBody","let stamp := s.stamp + env.ns p.dt","let stamp := s.stamp + env.ns s.t","C90 stamps")
M(S,"genPhase","s.t < bound","s.t ≤ bound","C90 number of steps")
M(S,"curvedStart",", 0, 0⟩",", p.dt, 0⟩","C92 path starts at the origin")
M(S,"genInit","poses := [(0, p.w_T_v_0)]","poses := []","C90 first pose")
M(S,"genInit","t := p.dt","t := 0","C90 number of steps")
M(S,"generate","t := env.sec s1.stamp + p.dt }","t := p.dt }","C90 combined trajectory has the configured duration")
M(S,"generate","genPhase env p true p.A p.dur { s2","genPhase env p true p.A (p.dur / 3) { s2","C90 combined duration")
M(S,"generate",".straight => genPhase env p false 0 p.dur",".straight => genPhase env p false p.A p.dur","C92 straight")
M(S,"generate",".other => genPhase env p false p.A",".other => genPhase env p true p.A","C92 sine trajectories are not random")
M(S,"pushAt","f i ++ [m]","[m] ++ f i","C90 order")
M(S,"sensorStep","⟨s, t, prev⁻¹ * cur, env.ns p.dt, p.cov s⟩","⟨s, t, cur * prev⁻¹, env.ns p.dt, p.cov s⟩","C90 motion in the frame of the previous pose")
M(S,"sensorStep","t + delay, C⁻¹ * prev⁻¹ * cur * C, env","t - delay, C⁻¹ * prev⁻¹ * cur * C, env","C90 delay")
M(S,"sensorStep","C⁻¹ * prev⁻¹ * cur * C, env","C * prev⁻¹ * cur * C⁻¹, env","C90 mounting")
M(S,"sensorStep","C⁻¹ * prev⁻¹ * cur * C * env.noise k s","env.noise k s * C⁻¹ * prev⁻¹ * cur * C","C90 noise side")
M(S,"sensorStep","motion := prev⁻¹ * cur * env.noise k s","motion := prev⁻¹ * cur","C90 noise of the reference")
M(S,"sensorStep","env.ns p.dt, p.cov s⟩","0, p.cov s⟩","C90 duration",0)
M(S,"sensorStep","env.ns p.dt, p.cov s⟩","env.ns p.dt, p.cov p.ref⟩","C90 covariance",1)
M(S,"sensorStep","if s = p.ref then","if s = 0 then","C90 reference needs no calibration")
M(S,"dataBody","{ data := d, prev := some (S s.t)","{ data := d, prev := some q","C90 motion over one step")
M(S,"dataBody","none => .ok () { s with prev := some (S s.t), t := s.t + env.ns p.dt","none => .ok () { s with prev := some (S s.t), t := s.t","C90 first step")
M(S,"simulate","s.t ≤ Ego.tMax","s.t < Ego.tMax","C90 last step")
M(S,"simulate","Ego.tMin g.poses, none, 0⟩","0, none, 1⟩","C90 (noise of round k)")
M(S,"feed","none => .throw .stdOutOfRange s","none => feed cenv o data l s","C91 (unreachable: lists have equal lengths)")
M(S,"main","if noisy then d.noisy else d.clean","if noisy then d.clean else d.noisy","C91 which data")
M(S,"main","if Ego.unprocessed cenv s then s.addMeasurements (Ego.cfg cenv o) else .ok () s","if Ego.unprocessed cenv s then .ok () s else s.addMeasurements (Ego.cfg cenv o)","C91 nothing is left over")
M(S,"main","(data o.ref).isEmpty then .throw","(data o.ref).length ≤ 1 then .throw","C91 a single step suffices")
M(S,"main","List.range (data o.ref).length)","List.range ((data o.ref).length - 1))","C91 all submitted")
json.dump(R,open(sys.argv[1],'w'))
