#!/usr/bin/env python3
import json,sys
R=[]
def M(f,d,o,n,c,nth=None,t=None):
    x=dict(file="Verif/Model/%s.lean"%f,old=o,new=n,claim=c); x["def"]=d
    if nth is not None: x["nth"]=nth
    if t: x["tightened"]=t
    R.append(x)
C="CameraReport"
M(C,"mahal","(e 0 * (1 / sigma2)) * e 0","(e 0 * sigma2) * e 0","C81 weighted with the inverse variance")
M(C,"mahal","+ (e 1 * (1 / sigma2)) * e 1","","C81 both components")
M(C,"raise","if |x| > mx then |x| else mx","if x > mx then x else mx","C81 absolute value")
M(C,"raise","if |x| > mx then |x| else mx","if |x| < mx then |x| else mx","C81 largest error")
M(C,"Val.corner","let e : Vec2 := p - o\n      { s with\n        stats","let e : Vec2 := o - p\n      { s with\n        stats","C81 sign of the error")
M(C,"Val.corner","maxY := raise s.maxY (e 1)","maxY := raise s.maxY (e 0)","C81 y component")
M(C,"Val.corner","errors := s.errors ++ [e]","errors := e :: s.errors","C81 order")
M(C,"Val.corner","md2 := s.md2 ++ [mahal s.sigma2 e]","md2 := s.md2","C81 one distance per error")
M(C,"Val.corner","stats := s.stats.addPoint isPos e","stats := s.stats","C81 statistics collect")
M(C,"Val.addImage","obs := s1.obs ++ [im]","obs := im :: s1.obs","C81 order of observations")
M(C,"Val.addImage","(List.range s.size).foldl (Val.corner isPos im) s","(List.range (s.size - 1)).foldl (Val.corner isPos im) s","C81 every corner")
M(C,"Val.addImage","| none => (s, false)","| none => (s, true)","C81 returns false without target")
M(C,"Val.mean","then some s.stats.mean else none","then some s.stats.mean else some s.stats.mean","C81 empty before the first error")
M(C,"Val.variance","some (fun i => s.stats.cov i i)","some (fun i => s.stats.cov i 0)","C81 variance")
M(C,"Val.std","Real.sqrt (v i)","v i","C81 standard deviation",nth=0)
M(C,"Val.numOutliers","decide (x > q)","decide (x < q)","C81 outliers",nth=0)
M(C,"lastCorner","normSum := a.normSum + norm2 e","normSum := norm2 e","C82 average")
M(C,"lastCorner","if norm2 e > a.maxNorm then norm2 e else a.maxNorm","norm2 e","C82 largest")
M(C,"lastCorner","then a.outliers + 1 else a.outliers","then a.outliers else a.outliers + 1","C82 outliers")
M(C,"Val.lastReport","a.normSum / s.size","a.normSum / (s.size + 1)","C82 average")
M(C,"Val.lastReport","s.obs.getLast?","s.obs.head?","C82 last image")
M(C,"Val.lastReport","a.maxX, a.maxY","a.maxY, a.maxX","C82 components")
M(C,"errorsLoop","(es ++ [err e]) (ms ++ [md2 e])","(es ++ [err e]) ms","C83 aligned lists")
M(C,"getErrors","List.range (w.est.inc.numErrorTerms w.B)","List.range (w.est.inc.numErrorTerms w.B - 1)","C83 all errors")
M(C,"statisticsOf","es.foldl (fun m e => raise m (e 1)) 0","es.foldl (fun m e => raise m (e 0)) 0","C83 y error")
M(C,"statisticsOf","decide (x > q)⟩","decide (x ≤ q)⟩","C83 outliers")
M(C,"statisticsOf","some (fun i => Real.sqrt (v i))","some v","C83 standard deviation")
M(C,"projectionVariance","if w.getNumBatches = 0 then .ok [] ()","if w.getNumBatches = 0 then .ub","C84 empty without batch",nth=0)
M(C,"projectionVariance",".take np) ()",".drop np) ()","C84 head")
M(C,"distortionVariance",").length - nd)) ()",").length - nd - 1)) ()","C84 tail")
M(C,"distortionVariance",").length < nd then .ub",").length ≤ nd then .ub","C84 bound")
M(C,"projectionVariance",").length < np then .ub",").length < np then .ok [] ()","C84 undefined when too short")
M(C,"at_","| none => .ub","| none => .ok 0 ()","C84 write is undefined without batch")
M(C,"writeSigmas","readAll (pv.map Real.sqrt)","readAll pv","C84 standard deviations")
M(C,"writeSigmas","if omni then 5 else 4","if omni then 4 else 5","C84 number of parameters")
M(C,"writeSigmas","(List.range 4)).bind","(List.range 3)).bind","C84 number of distortion parameters")
C="CameraMain"
M(C,"initLoop","if r then .ok () s' else initLoop fs s'","initLoop fs s'","(equivalent: later calls change nothing)")
M(C,"initLoop","| f :: fs, s => (s.initGeometry f.geo).bind fun r s' => if r","| f :: fs, s => (s.initGeometry f.geo).bind fun r s' => if true","C85 tries every image")
M(C,"imageLoop","saved ++ savedBy save s s' f","savedBy save s s' f","C85 written images")
M(C,"savedBy","≠ s.estObs.length then","= s.estObs.length then","C85 written images")
M(C,"calibrate","(s2.processBatch D m0 last lastOk).bind fun _ s3 => .ok saved s3","Res.ok saved s2","C85 no image left over")
M(C,"calibrate","imageLoop D m0 save frames [] s1","imageLoop D m0 save frames.tail [] s1","C85 every image")
M(C,"program","(look s3 (writeSigmas s3.w diag omni np nd))","(look s3 (writeSigmas s3.w diag omni nd np))","C85 result")
M(C,"program",".ok (saved, st, sg.1, sg.2) s3",".ok (saved, st, sg.2, sg.1) s3","C85 result")
json.dump(R,open(sys.argv[1],"w"),indent=1)
print(len(R))
