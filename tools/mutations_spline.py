#!/usr/bin/env python3
"""Mutations of the spline batch and parameter vector models: writes the JSON list for mutate.py."""
import json,sys
F="Verif/Model/SplineBatch.lean"
M=[]
def a(d,old,new,claim,**k): M.append(dict(file=F,**{"def":d,"old":old,"new":new,"claim":claim},**k))
a("push","{ p with rot := p.rot ++ [s] }","{ p with trans := p.trans ++ [s] }","C99 listed with its kind")
a("push","{ p with trans := p.trans ++ [s] }","{ p with trans := s :: p.trans }","C99 order of splines")
a("splines","| .rot => p.rot\n\n/-- `_tr","| .rot => p.trans\n\n/-- `_tr","C99 getters")
a("addLoop","(p, s.2.setActive d true)","(p, s.2)","C99 variables active")
a("addLoop","(p, s.2.setActive d true)","(p, s.2.setActive d false)","C99 variables active")
a("addLoop","(some d) g).mapState","(some d) 0).mapState","C99 given group")
a("addLoop","fun _ s' => addLoop g l s'","fun _ s' => addLoop (g + 1) l s'","C99 one group")
a("addSpline",".throw e t => .throw e ({ s.1 with base := t.1 }, t.2)",".throw e t => .throw e (({ s.1 with base := t.1 } : SplineProblem V).push k x, t.2)","C99 failed spline not listed")
a("addSpline",".throw e t => .throw e ({ s.1 with base := t.1 }, t.2)",".throw e t => .throw e s","C99 leftovers after exception")
a("addSpline",".push k x, t.2)\n    | .throw",", t.2)\n    | .throw","C99 spline listed")
a("addSpline","  | none => .ub\n  | some x =>\n    match addLoop","  | none => .throw .nullPointer s\n  | some x =>\n    match addLoop","C99 null pointer undefined")
a("getSpline","| none => if checked then .throw .outOfBound () else .ub","| none => .throw .outOfBound ()","C99 release build getter")
a("getSpline","(p.splines k)[idx]?","(p.splines k)[idx - 1]?","C99 getter index")
a("SOp.step","(op.step (s.1.base, s.2)).mapState fun t => ({ s.1 with base := t.1 }, t.2)","(op.step (s.1.base, s.2)).mapState fun t => (⟨t.1, [], []⟩, t.2)","C99 histories / clear keeps splines")
a("writeRound","if s2.1 + step < -9223372036854775808 ∨ 9223372036854775807 < s2.1 + step then .ub\n      else","","C100 overflow",note="expected survivor: no theorem claims the overflow itself")
a("writeRound","(env.ang ro s1.1) s1","(env.ang ro (s1.1 + step)) s1","C100 same time")
a("writeRound","(env.ang ro s1.1) s1","(env.ang tr s1.1) s1","C100 the rotation spline")
a("writeSpline","s.1 < env.maxTime tr)","s.1 ≤ env.maxTime tr)","C100 times below the end")
a("writeSpline","(env.minTime tr, out))","(env.minTime ro, out))","C100 start")
a("writeSpline","(env.minTime tr, out))","(env.minTime tr, []))","C100 earlier output kept")
a("writeBatch","writeBatch env step ros (i + 1) trs out'","writeBatch env step ros i trs out'","C100 pairs")
a("writeBatch","| none => .throw .stdOutOfRange out","| none => .ok () out","C100 missing rotation spline throws")
a("writeAll","  | none :: _, _ => .ub\n","  | none :: bs, out => writeAll env step bs out\n","C100 other batch undefined")
a("writeAll","writeBatch env step p.rot 0 p.trans out","writeBatch env step p.trans 0 p.rot out","C100 splines swapped")
a("calibBatch",".trans (some tr) 0 s",".trans (some tr) 1 s","C101 groups")
a("calibBatch",".rot (some ro) 0 s1",".rot (some tr) 0 s1","C101 rotation spline")
a("calibBatch","setGroupsOrdering [0, 1]","setGroupsOrdering [1, 0]","C101 calibration variables last")
a("calibBatch","(onBase (addTermsAll s1.2 ts) s1).bind fun _ s2 =>","(onBase (addTermsAll s1.2 ts.tail) s1).bind fun _ s2 =>","C101 every error term")
a("calibBatch","(addAll 1 cal) s\n","(addAll 0 cal) s\n","C101 groups of egomotion batch")
F="Verif/Model/DesignVars.lean"
a("readRows","| _ :: _, [] => none","| _ :: _, [] => some []","C102 rows beyond the matrix undefined")
a("rows","if active v then (List.range (dim v)).map fun i => (v, i) else []","(List.range (dim v)).map fun i => (v, i)","C102 inactive variables have no row")
a("minDim",".v_R_p => 3",".v_R_p => 4","C102 rows of rotation")
a("ctorActive","| .t_r => delays","| .t_r => true","C102 report needs all switches",note="t_l still follows the switch")
a("batchOrder","[.b, .k_l, .t_l, .k_r, .t_r, .v_r_vp, .v_R_p]","[.b, .k_l, .k_r, .t_l, .t_r, .v_r_vp, .v_R_p]","C102 labels fit rows")
a("TDVars.getParameters","setSeg p 8 [o.ypr 0","setSeg p 7 [o.ypr 0","C102 slots")
a("TDVars.getParameters","p.set 4 (some o.t_r)","p.set 2 (some o.t_r)","C102 slots")
a("TDVars.printedLabels","(.k_l, 0), (.t_l, 0), (.k_r, 0)","(.k_l, 0), (.k_r, 0), (.t_l, 0)","C102 labels")
a("construct","if num < 0 then .throw .external []\n  else ","","C102 negative number of sensors throws",note="also covers absence of the exception")
a("construct","AL.set (cfg i).idx (cfg i) m","AL.set i (cfg i) m","C102 sensors by configured index")
a("construct","List.range num.toNat","List.range (num.toNat - 1)","C102 every sensor")
a("EgoVars.batchOrder","[(s, .t), (s, .r), (s, .R)]","[(s, .r), (s, .t), (s, .R)]","C102 labels fit rows")
a("EgoVars.getParameters","setSeg p 1 [c.trans 0, c.trans 1, c.trans 2]","setSeg p 1 [c.trans 0, c.trans 1, c.trans 1]","C102 translation")
a("EgoVars.getParameters","| none => .throw .outOfBound ()\n  | some c","| none => .ok [] ()\n  | some c","C102 unknown sensor")
json.dump(M,open(sys.argv[1],"w"),ensure_ascii=False)
