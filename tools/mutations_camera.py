#!/usr/bin/env python3
import json,sys
R=[]
def M(f,d,o,n,c,nth=None,t=None):
    x=dict(file="Verif/Model/%s.lean"%f,old=o,new=n,claim=c); x["def"]=d
    if nth is not None: x["nth"]=nth
    if t: x["tightened"]=t
    R.append(x)
C="Camera"
M(C,"Cam.allocDV","then true else s.w.heap.active d","then false else s.w.heap.active d","C77 pose variables are active (estimated)")
M(C,"Cam.allocDV","then 3 else s.w.heap.minDim d","then 4 else s.w.heap.minDim d","pose variables have three minimal dimensions")
M(C,"Cam.allocDV","if d = s.nd then v else","if d = s.nd + 1 then v else","C76 initial pose")
M(C,"Cam.allocET","then 2 else s.w.heap.etDim e","then 1 else s.w.heap.etDim e","reprojection errors have dimension two")
M(C,"Cam.allocET","then deps else","then [] else","C77 error dependencies")
M(C,"Cam.initBatch","(addDVs b s.opt.lmGroup s.lms s1)","(addDVs b s.opt.calGroup s.lms s1)","C77 landmark group")
M(C,"Cam.initBatch","(addDVs b s.opt.calGroup s.cal s2)","(Res.ok () s2)","C77 camera variables in the batch")
M(C,"Cam.initBatch","{ s3 with batchObs := [] }","s3","C76 pending images cleared")
M(C,"Cam.initBatch","batch := some b, nb","batch := s.batch, nb","C76 new batch")
M(C,"Cam.errorLoop","else errorLoop b q t o ls (i + 1) s","else errorLoop b q t o ls i s","C77 visibility by corner index")
M(C,"Cam.errorLoop","if o.visible i then","if o.visible i = false then","C77 visible corners only")
M(C,"Cam.errorLoop","[q, t, l] ++ s.cal","[q, l] ++ s.cal","C77 error dependencies")
M(C,"Cam.addObservation","(errorLoop b q t o s3.lms 0 s3)","(errorLoop b q t o s3.lms 1 s3)","C77 corner index")
M(C,"Cam.addObservation","(s2.allocDV o.t)","(s2.allocDV o.q)","C76 initial translation")
M(C,"Cam.addObservation","num := s4.num + 1","num := s4.num","C76 count")
M(C,"Cam.addObservation","(some t) s.opt.trGroup","(some t) s.opt.calGroup","C77 translation group")
M(C,"Cam.processBatch","if r.batchAccepted then s.batchObs ++ s.estObs else s.estObs","s.batchObs ++ s.estObs","C76 used only if accepted")
M(C,"Cam.processBatch","then s.batchObs ++ s.estObs else","then s.estObs ++ s.batchObs else","C78 order of observations")
M(C,"Cam.processBatch","{ s2 with num := 0 }","s2","C76 count restarts")
M(C,"Cam.processBatch","(some b) false with","(some b) true with","C76 batches are not forced")
M(C,"Cam.processBatch",".throw e { s with w := w' }",".throw e { s with w := w', batchObs := [] }","C79 images pending after a failure")
M(C,"Cam.processBatch","| none => .ok () s\n  | some b =>\n    match s.w","| none => .throw .nullPointer s\n  | some b =>\n    match s.w","C76 processBatch before the first image")
M(C,"Cam.addImage","if s.ready = false then .throw .invalidOperation s","if s.ready = true then .throw .invalidOperation s","C76 geometry must be initialised")
M(C,"Cam.addImage","| none => .ok false s","| none => .ok true s","C76 undetected image returns false")
M(C,"Cam.addImage","if s2.num = s2.opt.batchNumImages","if s2.num ≥ s2.opt.batchNumImages","C76 never / C79 silent")
M(C,"Cam.addImage","s1.batchObs ++ [en] }","[en] }","C76 pending images")
M(C,"Cam.addImage","s1.batchObs ++ [en] }","en :: s1.batchObs }","C76 order of images")
M(C,"Cam.initGeometry","if s.ready then .ok true s","if s.ready then .ok false s","initGeometry again returns true")
M(C,"Cam.initGeometry","else .ok false s","else .ok true s","initGeometry without target returns false")
M(C,"Cam.initGeometry","{ s with ready := true }","s","geometry ready after initGeometry")
M(C,"Cam.getTransformation","dvs[idx * 2 + 1]?","dvs[idx * 2]?","C78 translation")
M(C,"Cam.getTransformation","if idx ≥ s.estObs.length","if idx > s.estObs.length","C78 bound")
json.dump(R,open("/tmp/mut/camera.json","w"),ensure_ascii=False)
