#!/usr/bin/env python3
import json
R=[]
def M(f,d,o,n,c,nth=None):
    x=dict(file="Verif/Model/%s.lean"%f,old=o,new=n,claim=c); x["def"]=d
    if nth is not None: x["nth"]=nth
    R.append(x)
S="Stats"
M(S,"MLE1.commit","if v ≤ 0 then { s with mean := some m, valid := false }","if v ≤ 0 then { s with mean := some m, valid := true }","C34 validity")
M(S,"MLE1.addPoint","fl (fl (fl (S * S) * 2) / (sqN n : K))","fl (fl (S * S) / (sqN n : K))","C34 variance formula")
M(S,"MLE1.addPoint","let n := s.n + 1\n  let S := fl (s.sum + p)","let n := s.n + 2\n  let S := fl (s.sum + p)","C34 point count")
M(S,"MLE1.addPoint","fl (s.sq + fl (p * p))","fl (s.sq + p)","C34 sum of squares")
M(S,"MLE1.reset","{ s with n := 0, valid := false, sum := 0, sq := 0 }","{ s with n := 0, valid := false, sum := 0 }","C34 reset forgets the points")
M(S,"MLE1.reset","{ s with n := 0, valid := false, sum := 0, sq := 0 }","{ s with n := 0, sum := 0, sq := 0 }","C34 reset invalidates")
M(S,"MLE1.wsum","wsum ps ws (acc + w * p)","wsum ps ws (acc + p)","C34 weighted mean")
M(S,"MLE1.wsq","wsq m ps ws (acc + w * (p - m) * (p - m))","wsq m ps ws (acc + w * (p - m))","C34 weighted variance")
M(S,"MLE1.addPointsW","if ws.length ≠ ps.length then s","if ws.length ≠ ps.length then { s with valid := false }","C34 mismatching weights ignored")
M(S,"outerInner","if a = j ∧ b = i then A1 i j else A1 a b","A1 a b","C55 lower triangle")
M(S,"outerInner","then v i * v j","then v i * v i","C55 entries")
M(S,"MLEd.commit","else if ∃ i, c i i < 0 then { s with mean := m, llt := c, valid := false }","","C34 multivariate validity")
M(S,"MLEd.addPoint","outerProduct S i j * 2 / ((n : ℝ) * n)","outerProduct S i j / ((n : ℝ) * n)","C34 multivariate covariance")
M(S,"MLEd.addPoint","if s.n = 0 then 0 else s.sum","s.sum","C34 multivariate reset")
M(S,"MLEd.reset","{ s with n := 0, valid := false }","{ s with valid := false }","C34 multivariate reset")
M(S,"Normal1.withVar","prec := 1 / v","prec := 1 / √v","C56 precision")
M(S,"Normal1.withVar","std := √v","std := v","C56 standard deviation")
M(S,"Normal1.withVar","Real.log (2 * Real.pi * v)","Real.log (2 * Real.pi)","C56 normaliser")
M(S,"Normal1.setVariance","if v ≤ 0 then .throw .badArgument s else","if v < 0 then .throw .badArgument s else","C56 zero variance rejected")
M(S,"Normal1.setVariance",".throw .badArgument s else .ok () (s.withVar v)",".throw .badArgument { s with var := v } else .ok () (s.withVar v)","C56 rejected call changes nothing")
M(S,"Normal1.mahalanobis","(x - s.mean) * s.prec * (x - s.mean)","(x - s.mean) * s.prec * x","C56 density")
M(S,"Normal1.cdf","√(2 * s.var)","√s.var","C56 cdf")
M(S,"Normal1.kl","Real.log (o.var * s.prec)","Real.log (s.var * o.prec)","C56 KL")
M(S,"Normal1.kl","(s.mean - o.mean) * o.prec * (s.mean - o.mean)","(s.mean - o.mean) * s.prec * (s.mean - o.mean)","C56 KL")
M(S,"Uniform1.setSupport","if a ≥ b then .throw .badArgument s else .ok () ⟨a, b, b - a⟩","if a > b then .throw .badArgument s else .ok () ⟨a, b, b - a⟩","C35 support rejection")
M(S,"Uniform1.setSupport",".ok () ⟨a, b, b - a⟩",".ok () ⟨a, b, b - a + 1⟩","C35 area")
M(S,"Uniform1.setMinSupport","s.setSupport a s.mx","s.setSupport s.mn a","C35 setMinSupport")
M(S,"Uniform1.setMaxSupport","s.setSupport s.mn b","s.setSupport b s.mx","C35 setMaxSupport")
M(S,"Uniform1.pdf","if x ≥ s.mn ∧ x ≤ s.mx then 1 / s.area else 0","if x ≥ s.mn then 1 / s.area else 0","C35 density")
M(S,"Uniform1.getVariance","((s.mx - s.mn) * (s.mx - s.mn)) / 12","((s.mx - s.mn) * (s.mx - s.mn)) / 6","C35 variance")
M(S,"Uniform1.setSupportI",".ok () ⟨a, b, b - a + 1⟩ else .ub",".ok () ⟨a, b, b - a⟩ else .ub","C35 integer mass")
M(S,"Uniform1.pmf","if x ≥ s.mn ∧ x ≤ s.mx then 1 / (s.area : ℚ)","if x > s.mn ∧ x ≤ s.mx then 1 / (s.area : ℚ)","C35 integer mass")
M(S,"Uniform1.getVarianceI","((s.mx - s.mn + 1 : Int) : ℚ) - 1) / 12","((s.mx - s.mn + 1 : Int) : ℚ)) / 12","C35 integer variance")
M(S,"Uniformd.areaLoop","areaLoop as bs (acc * (b - a))","areaLoop as bs (acc + (b - a))","C35 volume")
M(S,"Uniformd.setSupport","if ∃ i, a i ≥ b i then","if ∃ i, a i > b i then","C35 rejection")
M(S,"Uniformd.pdf","if (∀ i, x i ≤ s.mx i) ∧ (∀ i, x i ≥ s.mn i) then","if (∀ i, x i ≤ s.mx i) then","C35 density")
M(S,"GammaD.normalizer","Real.log (Real.Gamma shape) - shape * Real.log invScale","Real.log (Real.Gamma shape) + shape * Real.log invScale","C57 density")
M(S,"GammaD.setShape","if a ≤ 0 then .throw .badArgument s","if a < 0 then .throw .badArgument s","C57 rejection")
M(S,"GammaD.setShape","⟨a, s.invScale, normalizer a s.invScale⟩","⟨a, s.invScale, s.norm⟩","C57 normaliser after setShape")
M(S,"GammaD.setInvScale","⟨s.shape, r, normalizer s.shape r⟩","⟨s.shape, r, s.norm⟩","C57 normaliser after setInvScale")
M(S,"GammaD.logpdf","(s.shape - 1) * Real.log x - x * s.invScale","s.shape * Real.log x - x * s.invScale","C57 density")
M(S,"GammaD.pdf","if x < 0 then some 0","if x < -1 then some 0","C57 support")
M(S,"GammaD.getMean","s.shape / s.invScale\n\n/-- `getMode`","s.shape * s.invScale\n\n/-- `getMode`","C57 mean")
M(S,"GammaD.getMode","(s.shape - 1) / s.invScale","s.shape / s.invScale","C57 mode")
M(S,"GammaD.getMode","if s.shape ≥ 1 then","if s.shape > 1 then","C57 mode at shape one")
M(S,"GammaD.getVariance","s.shape / (s.invScale * s.invScale)","s.shape / s.invScale","C57 variance")
M(S,"GammaD.kl","s.shape * (1 / s.invScale - 1 / o.invScale) * o.invScale","s.shape * (1 / s.invScale) * o.invScale","C57 KL nonnegative")
M(S,"GammaD.chiSquare","ctor raw (0.5 * degrees) 0.5","ctor raw (0.5 * degrees) 2","C57 chi-square scale")
M(S,"GammaD.setDegrees","s.setShape (degrees * 0.5)","s.setShape degrees","C57 degrees round trip")
M(S,"GammaD.getDegrees","s.shape * 2","s.shape","C57 degrees round trip")
G="Geometry"
M(G,"rot2","Real.cos yaw, -Real.sin yaw, 0; Real.sin yaw","Real.cos yaw, Real.sin yaw, 0; Real.sin yaw","C33 2d rotation")
M(G,"trans2","!![1, 0, x; 0, 1, y; 0, 0, 1]","!![1, 0, y; 0, 1, x; 0, 0, 1]","C33 2d translation")
M(G,"set2","trans2 x y * rot2 yaw","rot2 yaw * trans2 x y","C33 order")
M(G,"rot3","cy * sp * sr - sy * cr","cy * sp * sr + sy * cr","C33 3d rotation")
M(G,"rot3","-sp, cp * sr, cp * cr, 0;","sp, cp * sr, cp * cr, 0;","C33 3d rotation")
M(G,"trans3","0, 0, 1, z; 0, 0, 0, 1","0, 0, 1, x; 0, 0, 0, 1","C33 3d translation")
M(G,"set3","rot3 roll pitch yaw), some (rot3","rot3 yaw pitch roll), some (rot3","C33 argument order")
M(G,"negLast","then - L i j else L i j","then L i j else L i j","C33 inverse")
M(G,"inverse","some (R' * L')","some (L' * R')","C33 inverse order")
M(G,"inverse","let R' := R.transpose","let R' := R","C33 inverse rotation")
M(G,"getInverse","| .ok _ t => .ok t s","| .ok _ t => .ok t t","C33 getInverse leaves the object alone")
M(G,"apply2","T.mulVec ![p 0, p 1, 1]","T.mulVec ![p 0, p 1, 0]","C33 apply")
M(G,"apply3","![q 0, q 1, q 2] s","![q 0, q 2, q 1] s","C33 apply")
O="Odometry"
M(O,"getParameters","setSeg p 8 [","setSeg p 9 [","C45 slots")
M(O,"getParameters","p.set 11 (some o.t_dmi)","p.set 21 (some o.t_dmi)","C45 negative result: the DMI delay slot")
M(O,"batchOrder",".k_fl, .k_fr, .k_dmi",".k_fr, .k_fl, .k_dmi","C61 order",0)
M(O,"ctorActive","| .v_R_r => false","| .v_R_r => true","C61 activity")
M(O,"columns","if active v then","if true then","C61 only active")
M(O,"printedLabels","(.t_s, 0), (.t_dmi, 0)]","(.t_s, 0)]","C61 labels")
M(O,"printRows","(l, c) :: r","(l, l) :: r","C61 rows")
D="Geodetic"
M(D,"enuR","-slat * slong, clat; clat * clong, clat * slong, slat","-slat * slong, -clat; clat * clong, clat * slong, slat","C41 ENU")
M(D,"enu2ecef","⟨(enuR lat lon).transpose","⟨enuR lat lon","C41 ENU direction")
M(D,"nedR","-clat * clong, -clat * slong, -slat","clat * clong, clat * slong, slat","C41 down")
M(D,"ecef2ned","(ned2ecef x y z lat lon).inverse","ned2ecef x y z lat lon","C41 inverse")
M(D,"ecef2enu","(enu2ecef x y z lat lon).inverse","(enu2ecef x y z lon lat).inverse","C41 argument order")
M(D,"wgs84ToEcef","(R * (1 - ecc2) + alt) * slat","(R + alt) * slat","C65 ellipsoid")
M(D,"wgs84ToEcef","(R + alt) * clat * slong","(R + alt) * slat * slong","C65 coordinates")
M(D,"wgs84ToEcef","Real.sqrt (1 - ecc2 * slat * slat)","Real.sqrt (1 - ecc2 * slat)","C65 radius")
C="Car"
M(C,"CarCal.unprocessed","!(s.buf .rear).isEmpty || ","","C36/C37 unprocessed measurements")
M(C,"CarCal.clear","{ s with buf := fun _ => [] }","s","C36 a measurement is used once")
M(C,"CarCal.roundQ","⌊x + 1 / 2⌋ else","⌊x⌋ else","C60 knot rate")
M(C,"CarCal.numSegments","if rate > knots then","if rate < knots then","C60 segments")
M(C,"CarCal.numSegments","⌈(knots : ℚ) * elapsed poses⌉","⌊(knots : ℚ) * elapsed poses⌋","C60 at least one segment")
M(C,"CarCal.velTerms","if lo > m.t ∨ hi < m.t then []","if lo > m.t then []","C58 admissible velocities")
M(C,"CarCal.inSpan","decide (bound + (d + m.t) > hi)","decide (bound + (d + m.t) ≥ hi)","C58 bound")
M(C,"CarCal.inSpan","decide (-bound + (d + m.t) < lo)","decide (bound + (d + m.t) < lo)","C58 bound")
M(C,"CarCal.dmiTerms","m.l o.dmiVar false","m.r o.dmiVar false","C58 value")
M(C,"CarCal.frontTerms","if m.l < o.cutoff ∨ m.r < o.cutoff then []","if m.l < o.cutoff then []","C58 cutoff",0)
M(C,"CarCal.frontTerms",".wheel m true m.r o.frwVar true]",".wheel m true m.l o.frwVar true]","C59 side")
M(C,"CarCal.frontTerms",".wheel m true m.r o.frwVar true]",".wheel m true m.r o.flwVar true]","C59 variance")
M(C,"CarCal.rearTerms","else if speed (d + m.t) < 0 then []","","C58 backwards",1)
M(C,"CarCal.steerTerms","if |axle (d + m.t)| < o.linTol then []","if axle (d + m.t) < o.linTol then []","C58 steering")
M(C,"CarCal.buildTerms","(if o.usePose then poseTerms","(if o.useVel then poseTerms","C58 options")
M(C,"CarCal.buildTerms","rearTerms o lo hi (env.delay e .rear)","rearTerms o lo hi (env.delay e .front)","C58 delays")
M(C,"CarCal.addMeasurements","if (s.buf .pose).length < 2 then","if (s.buf .pose).length < 1 then","C36/C60 two poses")
M(C,"CarCal.addMeasurements","{ s.clear with start := s.last,","{ s.clear with start := s.start,","C37 next window")
M(C,"CarCal.addMeasurements","gains := s.gains ++ [g]","gains := [g]","C36/C37 history")
M(C,"CarCal.addMeasurement","≥ o.window then addMeasurements","> o.window then addMeasurements","C37 window length")
M(C,"CarCal.addMeasurement","if s.start = -1 then t else s.start","if s.start = 0 then t else s.start","C37 first time")
M(C,"CarCal.push","w k ++ [m] else w k","m :: w k else w k","C36 arrival order")
M(C,"CarCal.push","if k = m.kind then w k ++ [m] else w k","w k ++ [m]","C58 sensors never mixed")
V="Vision"
M(V,"Vision.reset","{ s with frames := [], found := [], prev := none }","{ s with next := 0, frames := [], found := [], prev := none }","C38 identifiers never reused")
M(V,"Vision.reset","{ s with frames := [], found := [], prev := none }","{ s with frames := [], prev := none }","C62 matches after reset")
M(V,"ofovMatches","drop (i + 1)","drop i","C62 camera pairs")
M(V,"trackAll","⟨s.ids p, i, q.1, some s.next, i, q.2.1⟩","⟨some s.next, i, q.1, s.ids p, i, q.2.1⟩","C62 sides")
M(V,"addImage","> s.tracksThreshold then","≥ s.tracksThreshold then","C63 threshold")
M(V,"addImage","if median > s.disparityThreshold","if median ≥ s.disparityThreshold","C63 disparity threshold")
M(V,"addImage","(m.length / 2) with","(m.length - 1) with","C63 median")
M(V,"addImage","next := s.next + 1\n","next := s.next + 2\n","C38 consecutive ids")
M(V,"addImage","frames := AL.set s.next f s.frames","frames := s.frames","C38 stored")
M(V,"addImage","else .ok () { s with prev := some f }\n  | some f, none","else .ok () s\n  | some f, none","C63 reference frame")
E="ErrorTerms"
M(E,"motionJxkm1","-Real.sin th * (xk 0 - xkm1 0) + Real.cos th * (xk 1 - xkm1 1)","-Real.sin th * (xk 0 - xkm1 0) - Real.cos th * (xk 1 - xkm1 1)","C39 Jacobian")
M(E,"motionJxk","(1 / T) • -!![Real.cos th, Real.sin th, 0;","(1 / T) • !![Real.cos th, Real.sin th, 0;","C39 Jacobian")
M(E,"motionB","-Real.sin th, Real.cos th, 0; 0, 0, 1]\n\n/-- `evaluateErrorImplementation`, 98","Real.sin th, Real.cos th, 0; 0, 0, 1]\n\n/-- `evaluateErrorImplementation`, 98","C39 error")
M(E,"obsA","+ Th 1 * Real.sin (xk 2)","- Th 1 * Real.sin (xk 2)","C39 observation",0)
M(E,"obsJxl","aa / temp2, bb / temp2; -bb / temp1, aa / temp1","aa / temp2, bb / temp2; bb / temp1, aa / temp1","C39 Jacobian")
M(E,"obsJTh","-(aa * ct + bb * st) / temp1, -1","-(aa * ct + bb * st) / temp1, 1","C39 Jacobian")
M(E,"steerJa","![1, meas, meas * meas, meas * meas * meas]","![1, meas, 2 * meas, meas * meas * meas]","C40 Jacobian")
M(E,"steerJv","1 / (v 0 * (v 1 * v 1 / (v 0 * v 0) + 1)), 0","1 / (v 1 * (v 1 * v 1 / (v 0 * v 0) + 1)), 0","C40 Jacobian")
M(E,"velErr","(vm - v, om - o)","(v - vm, om - o)","C39 Jacobian")
M(E,"wheelErr","-(v 1), -(v 2)]","(v 1), -(v 2)]","C40 Jacobian")
M(E,"wheelJv","k * v 0 / temp1, k * v 1 / temp1, 0; 0, 0, 0","k * v 0 / temp1, k * v 1 / temp1, 0; 0, 1, 0","C40 Jacobian")
M(E,"wheelJk","else -![v 0, 0, 0]","else ![v 0, 0, 0]","C40 Jacobian")
M(E,"Weighted.make","⟨R, R⁻¹⟩","⟨R, R⟩","C46 weighting")
M(E,"Weighted.setCovariance","{ s with cov := R }","{ s with invR := R }","C46 weighting")
print(json.dumps(R,ensure_ascii=False))
