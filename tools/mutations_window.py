#!/usr/bin/env python3
import json
R=[]
def M(f,d,o,n,c,nth=None,t=None):
    x=dict(file="Verif/Model/%s.lean"%f,old=o,new=n,claim=c); x["def"]=d
    if nth is not None: x["nth"]=nth
    if t: x["tightened"]=t
    R.append(x)
# survivors of the previous round, tightened since
M("Stats","MLE1.reset","{ s with n := 0, valid := false, sum := 0, sq := 0 }","{ s with n := 0, sum := 0, sq := 0 }","C34 reset invalidates",t=["C34_reset"])
M("Stats","Uniform1.setMaxSupport","s.setSupport s.mn b","s.setSupport b s.mx","C35 one end",t=["C35_set_one_end"])
M("Stats","GammaD.getMode","(s.shape - 1) / s.invScale","s.shape / s.invScale","C57 mode",t=["C57_mode"])
M("Stats","GammaD.getMode","if s.shape ≥ 1 then","if s.shape > 1 then","C57 mode at shape one",t=["C57_mode"])
M("Vision","ofovMatches","drop (i + 1)","drop i","C62 camera pairs",t=["C62_match_shape"])
M("Vision","ofovMatches","drop (i + 1)","drop (i + 2)","C62 camera pairs complete",t=["C62_stereo_complete"])
W="Window"
M(W,"Win.init","⟨fun _ => [], -1, -1, e, [], [c.params e], []⟩","⟨fun _ => [], 0, -1, e, [], [c.params e], []⟩","C69 first measurement starts the window")
M(W,"Win.init","e, [], [c.params e], []⟩","e, [], [], []⟩","C71 parameter history")
M(W,"Win.clear","{ s with buf := fun _ => [] }","{ s with start := -1 }","C69 a window is submitted once")
M(W,"Win.addMeasurements","start := s.last, sent","start := s.start, sent","C69 next window starts")
M(W,"Win.addMeasurements","{ s.clear with start := s.last","{ s with start := s.last","C69 buffers cleared")
M(W,"Win.addMeasurements","gains := s.gains ++ [g]","gains := g :: s.gains","C71 gains order")
M(W,"Win.addMeasurements","params := s.params ++ [c.params e2]","params := s.params ++ [c.params e1]","C71 parameters after the update")
M(W,"Win.addMeasurements",".throw ex { s1 with est := e2 }",".throw ex { s with est := e2 }","C69 exception after clearing")
M(W,"Win.addMeasurements","if c.ready s.buf = false then .ok () s","if c.ready s.buf = false then .ok () s.clear","C69 kept while not ready")
M(W,"Win.addMeasurement","if s.start = -1 then t else s.start","if s.start = -1 then t else t","C69 window length")
M(W,"Win.addMeasurement","≥ c.window then","> c.window then","C69 window boundary")
M(W,"Win.addMeasurement","{ s with last := t,","{ s with last := s.last,","C69 last time stamp")
M(W,"Win.add","(addMeasurement c s (c.time m)).bind fun _ s' => .ok () { s' with buf := push c s'.buf m }","addMeasurement c { s with buf := push c s.buf m } (c.time m)","C69 the triggering measurement opens the next window")
M(W,"Win.push","w k ++ [m] else w k","m :: w k else w k","C69 arrival order")
M(W,"Win.push","if k = c.kind m then w k ++ [m] else w k","w k ++ [m]","C69 own buffer")
T="TimeDelay"
M(T,"TD.roundQ","-⌊-x + 1 / 2⌋","⌊x⌋","C70 rounding")
M(T,"TD.toInt32","x ≤ 2147483647 then","x ≤ 2147483648 then","C70 int range")
M(T,"TD.tMax","poses.getLast? with","poses.head? with","C70 time range")
M(T,"TD.numSegments","else if elapsed poses = 0 then none","else if elapsed poses = 0 then some 0","C70 zero duration")
M(T,"TD.numSegments","if rate > knots then","if rate ≥ knots then","C70 rate boundary")
M(T,"TD.numSegments","⌈(knots : ℚ) * elapsed poses⌉","⌊(knots : ℚ) * elapsed poses⌋","C70 number of segments")
M(T,"TD.initSplines","| some ex => .throw ex e","| some _ => .ok n e","C70 fitter exception")
M(T,"TD.leftTerms","o.delayBound + td > hi","o.delayBound + td ≥ hi","C70 left wheel term bound")
M(T,"TD.leftTerms","env.delay e false + m.t","env.delay e true + m.t","C70 left delay",0)
M(T,"TD.leftTerms","(o.lwVar, o.vyVar, o.vzVar)","(o.rwVar, o.vyVar, o.vzVar)","C70 left covariance",0)
M(T,"TD.rightTerms","[.wheel m true td","[.wheel m false td","C70 right wheel")
M(T,"TD.rightTerms","-o.delayBound + td < lo then []\n    else [.wheel m true","-o.delayBound + td ≤ lo then []\n    else [.wheel m true","C70 right bound")
M(T,"TD.prepare","++ rightTerms env o e' lo hi (w .right)","++ rightTerms env o e' lo hi (w .left)","C70 right measurements")
M(T,"TD.prepare","poseTerms (w .pose) ++ leftTerms","leftTerms","C70 pose terms")
M(T,"TD.ready","(w .pose).length < 2","(w .pose).length < 1","C70 at least two poses")
M(T,"TD.unprocessed"," || !(s.buf .right).isEmpty","","C69 unprocessed")
M(T,"TD.PredLists.push","l.errs2 ++ [r.2.2]","l.errs2","C71 aligned lists")
M(T,"TD.predictPoses","(l.push m.t (env.eval e poses (.pose m)))","l","C71 pose predictions")
M(T,"TD.predictLeft","then predictLeft env o e poses ms l","then l","C71 left predictions after a skipped one")
M(T,"TD.predictRight",".wheel m true td m.value (o.rwVar",".wheel m false td m.value (o.rwVar","C71 right predictions",1)
M(T,"TD.predict","predictRight env o s.est (s.buf .pose) (s.buf .right) p.right","predictRight env o s.est (s.buf .pose) (s.buf .left) p.right","C71 right predictions")
G="Egomotion"
M(G,"Ego.lround","-⌊-x + 1 / 2⌋","⌊x⌋","C72 rounding")
M(G,"Ego.integrate","let cur := prev * m.motion","let cur := m.motion * prev","C73 composition order")
M(G,"Ego.integrate","[(m.t - m.duration, prev)]","[(m.t, prev)]","C73 first pose")
M(G,"Ego.integrate","[(m.t, cur)]) cur","[(m.t, cur)]) prev","C73 accumulated pose")
M(G,"Ego.tMax","l.getLast? with","l.head? with","C72 range")
M(G,"Ego.numSegments","if rate > knots then","if rate ≥ knots then","C72 rate")
M(G,"Ego.numSegments","if elapsed l = 0 then inf","if elapsed l = 0 then 0","C72 zero duration")
M(G,"Ego.initSplines","if (w o.ref).isEmpty then .throw .stdOutOfRange e","if (w o.ref).isEmpty then .ok ([], 0) e","C72 missing reference sensor")
M(G,"Ego.initSplines","{ e with prev := r.2 }","{ e with prev := e.prev }","C73 continuation between windows")
M(G,"Ego.initSplines","| some ex => .throw ex e1","| some ex => .throw ex e","C73 after a fitter exception")
M(G,"Ego.refTerms","| some p, m :: ms => ⟨m, p, m.t⟩ :: refTerms (some m.t) ms","| some p, m :: ms => ⟨m, p, m.t⟩ :: refTerms (some p) ms","C72 source time")
M(G,"Ego.refTerms","| none, m :: ms => refTerms (some m.t) ms","| none, m :: ms => ⟨m, m.t - m.duration, m.t⟩ :: refTerms (some m.t) ms","C72 first measurement has no term")
M(G,"Ego.otherTerms","let td := m.t - d\n    if bound + td > hi ∨","let td := m.t + d\n    if bound + td > hi ∨","C72 sign of the delay")
M(G,"Ego.otherTerms","-bound + td < lo then otherTerms bound lo hi d prev ms","-bound + td < lo then otherTerms bound lo hi d none ms","C72 gaps")
M(G,"Ego.otherTerms","⟨m, p, td⟩ :: otherTerms","⟨m, td, p⟩ :: otherTerms","C72 direction")
M(G,"Ego.sensorTerms","if k = o.ref then some (refTerms none (w k))","if k = o.ref then some []","C72 reference terms")
M(G,"Ego.sensorTerms","(env.delay e k) none (w k))\n  else none","(env.delay e o.ref) none (w k))\n  else none","C72 own delay")
M(G,"Ego.allTerms","| none => none\n    | some l","| none => allTerms env o e lo hi w ks\n    | some l","C74 unknown sensor")
M(G,"Ego.allTerms","fun r => l ++ r","fun r => r","C72 all terms")
M(G,"Ego.prepare","(tMin kn) (tMax kn) w","(tMax kn) (tMin kn) w","C72 range")
M(G,"Ego.addBatch",".ok g e' => .ok g ⟨e', e.prev⟩",".ok g e' => .ok g ⟨e', 1⟩","C73 accumulated pose kept")
M(G,"Ego.unprocessed","!(env.order s.buf).isEmpty","(env.order s.buf).isEmpty","C74 unprocessed")
M(G,"Ego.PredLists.push","l.errs ++ [r.2.1]","[r.2.1]","C75 aligned lists")
M(G,"Ego.predictRef","(l.push m.t (env.eval e kn ⟨m, p, m.t⟩))","(l.push p (env.eval e kn ⟨m, p, m.t⟩))","C75 time stamps")
M(G,"Ego.predictOther","| none => predictOther env e kn bound d (some td) ms l","| none => predictOther env e kn bound d none ms l","C75 second measurement")
M(G,"Ego.predictAll","else .throw .stdOutOfRange p","else predictAll env o e kn w ks p","C75 unknown sensor")
M(G,"Ego.predict","fun p' => (p', { s with est := e' })","fun p' => (p', s)","C75 predict moves the start of the next window")
M(G,"Ego.predictedRef","(S src)⁻¹ * S dst","S dst * (S src)⁻¹","C72 motion")
M(G,"Ego.predictedOther","(S src * C)⁻¹ * (S dst * C)","(C * S src)⁻¹ * (C * S dst)","C72 motion of a mounted sensor")
json.dump(R,open("/tmp/mut/window.json","w"),ensure_ascii=False)
