#!/usr/bin/env python3
"""Mutations of the 2D laser model: writes the JSON list for mutate.py."""
import json,sys
F="Verif/Model/Lrf.lean"
M=[]
def a(d,old,new,claim,**k): M.append(dict(file=F,**{"def":d,"old":old,"new":new,"claim":claim},**k))
a("costLoop","fun s : CostSt => s.t < stop","fun s : CostSt => s.t ≤ stop","C94 number of inputs")
a("costLoop","A * Real.cos (2 * Real.pi * f * s.t)","A * Real.sin (2 * Real.pi * f * s.t)","C94 path")
a("costLoop","⟨0, []⟩\n\n/-- lines 23","⟨T, []⟩\n\n/-- lines 23","C94 number of inputs")
a("controls","+ Real.sqrt (1 + c0 * c0)) / 2","+ Real.sqrt (1 + c * c)) / 2","C94 mean speed")
a("controls","(Real.arctan c - th) / T]","(Real.arctan c - Real.arctan c0) / T]","C94 first turn")
a("controls","controls f T c (Real.arctan c) cs","controls f T c th cs","C94 turns add up")
a("genSineWavePath","    0 :: match s.cost with","    _u ++ 0 :: match s.cost with","C94 previous contents dropped")
a("genSineWavePath","| c :: cs => controls f T c 0 cs","| c :: cs => controls f T c (Real.arctan c) cs","C94 first turn")
a("backproject","- Th 1 * Real.sin (x 2) + r","+ Th 1 * Real.sin (x 2) + r","C95 zero error")
a("backproject","r * Real.sin (b + Th 2 + x 2)]","r * Real.sin (b + x 2)]","C95 zero error")
a("visit","if 0 < rij then","if 0 ≤ rij then","C95 first positive range")
a("visit","if s.1 then some s else","if false then some s else","C95 first sighting (last instead)")
a("visit","(true, backproject x Th rij bij)","(false, backproject x Th rij bij)","C95 first sighting")
a("visitAll","(visitAll x Th r b i (j + 1) l)","(visitAll x Th r b i j l)","C95 landmark index")
a("initLoop","initLoop Th r b (i + 1) xs","initLoop Th r b i xs","C95 pose index")
a("initLandmarks","| [] => .ok () old\n  | r0","| [] => .ok () []\n  | r0","C95 without ranges")
a("initLandmarks","(List.replicate r0.length (false, 0))","(List.replicate xOdom.length (false, 0))","C95 one guess per landmark")
a("simInit","[List.replicate p.lm.length 0], [List.replicate p.lm.length 0]⟩","[], []⟩","C96 rows aligned with steps")
a("motionStep","angleMod (x 2 + T * u 2)]","x 2 + T * u 2]","C96 heading wraps")
a("motionStep","-Real.sin (x 2) * u 1","Real.sin (x 2) * u 1","C96 motion error is the noise")
a("simRange","obsB x l Th * obsB x l Th) + nr","obsB x l Th * obsB x l Th) - nr","C96 observation error is the noise")
a("simBearing","- x 2 - Th 2 + nb)","- x 2 + Th 2 + nb)","C96 observation error is the noise")
a("simBody","motionStep p.dt xt ui","motionStep p.dt xt (ui + p.nu i)","C96 truth without noise")
a("simBody","motionStep p.dt xo un]","motionStep p.dt xt un]","C96 odometry from odometry")
a("simBody","simRange p.Th x l (p.nr i j)","simRange p.Th xt l (p.nr i j)","C96 measured from the new pose")
a("simBody","(p.nb i j)] }","(p.nb j i)] }","C96 noise of the right landmark")
a("simBody","if !p.okQ then .throw .badArgument d1 else","","C96 bad noise reported")
a("simulate","simLoop p u (steps - 1) 1","simLoop p u steps 1","C96 number of entries")
a("Keep","if det = 0 then 0 < rec else","if det = 0 then False else","C97 zero determinant")
a("Keep","tol < 1 / 2 * Real.logb","tol < Real.logb","C97 threshold")
a("Keep","0 < rec / det ∧ tol < 1 / 2 * Real.logb 2 (rec / det)","0 < rec / det ∧ tol < 1 / 2 * Real.logb 2 (det / rec)","C97 gain")
a("onlineRound","if ∃ j ∈ idx, n < j + bs then .ub else","","C97 ragged batches undefined")
a("onlineRound","n < j + bs","n ≤ j + bs","C97 returns for dividing sizes")
a("onlineRound","if idx.length = 1 then","if idx.length = 0 then","C97 first batch kept")
a("onlineRound","else if Keep tol s.detRec det then\n    .ok () ⟨w, idx, env.theta w, some cov, det,","else if Keep tol s.detRec det then\n    .ok () ⟨w, idx, env.theta w, some cov, s.detRec,","C97 record updated")
a("onlineRound","⟨w, idx.dropLast, s.calib, s.cov, s.detRec,","⟨w, idx, s.calib, s.cov, s.detRec,","C97 rejected batch removed")
a("onlineRound","⟨w, idx.dropLast, s.calib,","⟨s.w, idx.dropLast, s.calib,","C97 rejection not undone")
a("onlineRound","⟨w, idx.dropLast, s.calib,","⟨w, idx.dropLast, env.theta w,","C97 reported calibration")
a("online","none, 0, []⟩","none, 1, []⟩","C97 initial record (unobservable: the first batch overwrites it)")
a("online","((steps + bs - 1) / bs)","(steps / bs)","C97 all batches")
a("Term.vars","| .motion k => [.state (k - 1), .state k]","| .motion k => [.state (k - 2), .state k]","C98 terms fit the batch")
a("Term.vars","| .obs k l => [.state k, .lm l, .theta]","| .obs k l => [.state k, .lm (l + 1), .theta]","C98 terms fit the batch")
a("stepTerms","(List.range nl).map (.obs k)","(List.range (nl - 1)).map (.obs k)","C98 all landmarks")
a("batchLoop","(addVars ad [(.state j, 0)] p)","(addVars ad [(.state j, 1)] p)","C98 groups")
a("buildBatch","min (i + bs) steps - (i + 1)","min (i + bs) steps - i","C98 states once")
a("buildBatch","(.theta, 2)] ++ (List.range nl)","(.theta, 1)] ++ (List.range nl)","C98 groups",nth=0)
a("batchStarts","⟨s.i + bs, s.starts","⟨s.i + bs + 1, s.starts","C98 batch starts")
a("buildOffline","(p.setGroupsOrdering [0, 1, 2])","(p.setGroupsOrdering [2, 1, 0])","C98 calibration last")
a("buildOffline","List.range' 1 (steps - 1)","List.range' 0 (steps - 1)","C98 offline terms")
json.dump(M,open(sys.argv[1],"w"))
