import json
M=[]
def mu(file,d,old,new,claim,**k): M.append(dict(file="Verif/Model/"+file,**{"def":d},old=old,new=new,claim=claim,**k))
# permute
mu("Permute.lean","permuteLoop","if pi ≥ c.length then","if pi > c.length then","C09: index n not rejected")
mu("Permute.lean","permuteLoop","if k > i then","if k > i + 1 then","C07: adjacent swap skipped")
mu("Permute.lean","chase","if k < i then","if k ≤ i then","C07: chase starts too late",note="while (k <= i)")
mu("Permute.lean","swapAt","some ((l.set i b).set k a)","some (l.set i b)","C08: element lost")
mu("Permute.lean","permute","if c.length ≠ perm.length then","if c.length > perm.length then","C09: longer vectors accepted")
# batch
mu("OptProblem.lean","addDesignVariable","if p.isDVInProblem d then .throw .invalidOperation p","if false then .throw .invalidOperation p","C01: variable added twice")
mu("OptProblem.lean","addDesignVariable","let p2 := if p1.isGroupInProblem g then p1 else","let p2 := if p1.isGroupInProblem g then","C01: ordering not extended")if False else None
mu("OptProblem.lean","addDesignVariable","{ p1 with ordering := p1.ordering ++ [g] }","{ p1 with ordering := g :: p1.ordering }","C01: group order not insertion order")
mu("OptProblem.lean","addDesignVariable","(AL.get g p2.groups).getD [] ++ [d]","d :: (AL.get g p2.groups).getD []","C01 order inside group")
mu("OptProblem.lean","addErrorTerm","if p.isETInProblem e then .throw .invalidOperation p","if false then .throw .invalidOperation p","C02 duplicates")
mu("OptProblem.lean","addErrorTerm","(h.etDVs e).all p.isDVInProblem","(h.etDVs e).any p.isDVInProblem","C02 foreign variables")
mu("OptProblem.lean","addErrorTerm","{ p with etLookup := p.etLookup ++ [e], errorTerms := p.errorTerms ++ [e] }","{ p with errorTerms := p.errorTerms ++ [e] }","C02 numErrorTerms")
mu("OptProblem.lean","clear","⟨[], [], [], [], [], []⟩\n\n/-- `numDesignVariablesImplementation","⟨[], [], [], [], [7], []⟩\n\n/-- `numDesignVariablesImplementation","C01 clear leaves ordering")
mu("OptProblem.lean","checkOrdering","else if seen.contains g then false\n    else checkOrdering p (g :: seen) o","else checkOrdering p (g :: seen) o","C04 duplicates accepted")
mu("OptProblem.lean","setGroupsOrdering","if o.length ≠ p.ordering.length then .throw .outOfBound p\n  else if","if","C04 shorter orderings accepted")
mu("OptProblem.lean","dimLoop","(if h.active d then dim + h.minDim d else dim)","(dim + h.minDim d)","C05 inactive variables counted")
mu("OptProblem.lean","dimLoop","dim + h.minDim d else dim","h.minDim d else dim","C05 sum overwritten")
mu("OptProblem.lean","designVariable","if idx ≥ p.lookup.length then","if idx > p.lookup.length then","C01 boundary")
mu("OptProblem.lean","scanGroups","if run + l.length > idx then","if run + l.length ≥ idx then","C01/C12 boundary")
mu("OptProblem.lean","scanGroups","scanGroups groups idx gs (run + l.length)","scanGroups groups idx gs l.length","C01 running index")
mu("OptProblem.lean","saveLoop","AL.set d (h.params d) b","AL.set d (h.params (d+1)) b","C06 wrong value saved")
mu("OptProblem.lean","restoreLoop","restoreLoop l (h.setParams d v)","restoreLoop l h","C06 restore does nothing")
mu("OptProblem.lean","saveDesignVariables","saveLoop h (AL.keys p.lookup) p.backup","saveLoop h (AL.keys p.lookup).tail p.backup","C06 first variable not saved")
# inc
mu("IncProblem.lean","addOne","(c + 1, g')","(c, g')","C10 count")
mu("IncProblem.lean","addOne","AL.set d (1, g) q1.counts","AL.set d (0, g) q1.counts","C10 count")
mu("IncProblem.lean","addOne","if g' ≠ g then .throw .invalidOperation q1\n    else","if false then .throw .invalidOperation q1\n    else","C10 group clash accepted")
mu("IncProblem.lean","addErrorLoop","if q.isETInProblem B e then .throw .invalidOperation q else addErrorLoop","if false then .throw .invalidOperation q else addErrorLoop","C13 duplicate terms")
mu("IncProblem.lean","add",".ok () { q2 with problems := q2.problems ++ [b] }",".ok () { q2 with problems := b :: q2.problems }","C48/C49 order of batches")
mu("IncProblem.lean","removeOne","groups := AL.del g q2.groups, ordering := q2.ordering.erase g, backup","groups := AL.del g q2.groups, ordering := q2.ordering, backup","C11 stale ordering")
mu("IncProblem.lean","removeOne","if (l.erase d).isEmpty then","if false then","C11 empty group remains")
mu("IncProblem.lean","removeOne","groups := AL.del g q2.groups, ordering := q2.ordering.erase g, backup := AL.del d q2.backup }","groups := AL.del g q2.groups, ordering := q2.ordering.erase g }","C17 backup kept")
mu("IncProblem.lean","removeOne","else .ok () { q2 with backup := AL.del d q2.backup }","else .ok () q2","C17 backup kept")
mu("IncProblem.lean","removeOne","counts := AL.del d q1.counts, groups","groups","C10 variable kept with count 0")
mu("IncProblem.lean","removeIdx","q1.problems.eraseIdx idx","q1.problems.eraseIdx 0","C16 wrong batch erased")
mu("IncProblem.lean","removeIdx","(removeLoop (B b) (B b).numDesignVariables 0 q)","(removeLoop (B b) ((B b).numDesignVariables - 1) 0 q)","C16 last variable not released")
mu("IncProblem.lean","remove","| none => .throw .invalidOperation q\n\n","| none => .ok () q\n\n","C16/C48 unknown batch accepted silently",nth=0)
mu("IncProblem.lean","clear","⟨[], [], [], [], q.backup⟩","⟨[], q.counts, [], [], q.backup⟩","C10 counts survive clear")
mu("IncProblem.lean","errorIdxLoop","if run + (B b).numErrorTerms > idx then","if run + (B b).numErrorTerms ≥ idx then","C13 boundary")
mu("IncProblem.lean","errorIdxLoop","some (k, idx - run)","some (k, idx)","C13 index in batch")
mu("IncProblem.lean","numErrorTerms","n + (B b).numErrorTerms","(B b).numErrorTerms","C13 sum")
mu("IncProblem.lean","saveDesignVariables","OptProblem.saveLoop h (AL.keys q.counts) q.backup","OptProblem.saveLoop h [] q.backup","C06 nothing saved")
mu("IncProblem.lean","getGroupDim",".ok (OptProblem.dimLoop h l 0) ()",".ok l.length ()","C05 dims")
mu("IncProblem.lean","checkOrdering","if !q.isGroupInProblem g then false\n    else ","","C04 unknown groups accepted")
# estimator
mu("Estimator.lean","swapBack","(o.set (o.idxOf m) (o.getLastD m)).set (o.length - 1) m","(o.set (o.idxOf m) (o.getLastD m))","C20 marginalised group lost")
mu("Estimator.lean","swapBack","(o.set (o.idxOf m) (o.getLastD m)).set (o.length - 1) m","o","C20 not last")
mu("Estimator.lean","orderMarginalized","if o.getLast? ≠ some w.est.margGroup then","if o.head? ≠ some w.est.margGroup then","C20 wrong end")
mu("Estimator.lean","runOptimizer","usub jcols dim⟩","jcols⟩","C20 index = all columns")
mu("Estimator.lean","sumDims","sumDims h q gs (n + d)","sumDims h q gs d","C20 sum")
mu("Estimator.lean","solutionValid","decide (srv.iterations = o.maxIterations) || D.ge srv.JFinal srv.JStart","decide (srv.iterations = o.maxIterations) && D.ge srv.JFinal srv.JStart","C19 validity")
mu("Estimator.lean","solutionValid","D.ge srv.JFinal srv.JStart","D.gt srv.JFinal srv.JStart","C19 > instead of >=")
mu("Estimator.lean","keep","|| decide (m.rankTheta > old.marginal.rankTheta)","|| decide (m.rankTheta ≥ old.marginal.rankTheta)","C19 rank boundary")
mu("Estimator.lean","keep","&& solutionValid D o srv) || force","|| force) && solutionValid D o srv","C19 force does not override validity")
mu("Estimator.lean","addBatch","D.halfDiff mg.svLog2Sum w4.est.stats.marginal.svLog2Sum","D.halfDiff w4.est.stats.marginal.svLog2Sum mg.svLog2Sum","C19/C25 sign")
mu("Estimator.lean","addBatch","heap := w4.est.inc.restoreDesignVariables w4.heap }","heap := w4.heap }","C18 values not restored")
mu("Estimator.lean","addBatch","let w3 := if force then w2 else w2.setInc (w2.est.inc.saveDesignVariables w2.heap)","let w3 := w2","C18 values not saved")
mu("Estimator.lean","addBatch","((w5.est.inc.remove w5.B problem).mapState w5.setInc).bind fun _ w6 =>\n","(Res.ok () w5 : Res (EWorld V F M) Unit).bind fun _ w6 =>\n","C18 batch not removed")
mu("Estimator.lean","addBatch",".ok ⟨false, gain, mg, sc, r.1⟩ w7",".ok ⟨false, gain, mg, sc, r.1⟩ { w7 with est := { w7.est with stats := ⟨gain, mg, sc, r.1.JStart, r.1.JFinal⟩ } }","C18/C50 stats overwritten on rejection")
mu("Estimator.lean","addBatch","(if w6.est.inc.numProblems > 0 then w6.restoreLinearSolver buildOk else .ok () w6)","(Res.ok () w6 : Res (EWorld V F M) Unit)","C24 layout not restored")
mu("Estimator.lean","layoutDVs","if h.active d then","if true then","C24 inactive variables get columns")
mu("Estimator.lean","layoutDVs","layoutDVs h q n (i + 1) (cb + h.minDim d)","layoutDVs h q n (i + 1) (cb + 1)","C24 column base")
mu("Estimator.lean","layoutDVs","then dvs.length - 1 else","then dvs.length else","C24 block index off by one")
mu("Estimator.lean","layoutETs","layoutETs B h q n (i + 1) (dim + h.etDim e)","layoutETs B h q n (i + 1) dim","C24 rows overlap")
mu("Estimator.lean","reoptimize","let st : Stats F M := ⟨D.zero,","let st : Stats F M := ⟨w2.est.stats.informationGain,","C50/C23 gain not reset")
mu("Estimator.lean","removeBatchIdx","(w1.reoptimize D m0 oracle).bind fun _ w2 => .ok () w2","(Res.ok () w1 : Res (EWorld V F M) Unit)","C23 no reoptimisation")
mu("Estimator.lean","removeBatch","| some idx => w.removeBatchIdx D m0 oracle idx","| some idx => w.removeBatchIdx D m0 oracle (idx + 1)","C23 wrong batch")
mu("Estimator.lean","scaledOf","if o.columnScaling then s else","if !o.columnScaling then s else","C19 scaled stats")
json.dump(M,open("/tmp/mut/core.json","w"))
