#!/usr/bin/env python3
"""Mutations of the solver adapter, the multivariate normal and the options: writes the JSON list for mutate.py."""
import json,sys
M=[]
def a(d,old,new,claim,**k): M.append(dict(file=F,**{"def":d,"old":old,"new":new,"claim":claim},**k))
F="Verif/Model/NormalMv.lean"
a("setMean","{ s with mean := m }","{ s with mean := -m }","C107 mean")
a("setMean","{ s with mean := m }","s","C107 mean set")
a("withCov","prec := if C.det = 0 then none else some C⁻¹","prec := if C.det = 0 then none else some C","C107 precision")
a("withCov","    det := C.det\n","    det := s.det\n","C107 determinant updated")
a("withCov","    cov := C }","    cov := s.cov }","C107 covariance updated")
a("withCov","0.5 * d * Real.log (2 * Real.pi)","d * Real.log (2 * Real.pi)","C107 normaliser")
a("withCov","0.5 * Real.log C.det)","Real.log C.det)","C107 normaliser determinant")
a("setCovariance","if C.transpose ≠ C then .throw .badArgument s\n  else","if False then .throw .badArgument s\n  else","C107 asymmetric rejected")
a("setCovariance","{ s with llt := env.llt C }","s","C107 factor updated")
a("setCovariance","{ s with llt := env.llt C }","{ s with llt := C }","C107 factor is the LLT factor")
a("setCovariance","if env.isPositive C = false then .throw .badArgument s1\n    else ","","C107 not positive rejected")
a("setCovariance","if ∃ i, C i i < 0 then","if ∃ i, C i i ≤ 0 then","C107 diagonal boundary")
a("setCovariance","if env.isPositive C = false then .throw .badArgument s1","if env.isPositive C = false then .throw .badArgument (s1.withCov C)","C107 rejected call keeps reported members")
a("setCovariance","if C.transpose ≠ C then .throw .badArgument s\n","if C.transpose ≠ C then .throw .outOfBound s\n","C107 exception kind")
a("ctor","{ raw with mean := m } C","raw C","C107 constructor mean")
a("mahalanobis","P *ᵥ (x - s.mean)","P *ᵥ x","C107 Mahalanobis distance")
a("mahalanobis","(x - s.mean) ⬝ᵥ","(x + s.mean) ⬝ᵥ","C107 Mahalanobis distance")
a("logpdf","-0.5 * q - n","-0.5 * q + n","C107 density normaliser")
a("logpdf","-0.5 * q - n","-q - n","C107 density")
a("pdf","(s.logpdf x).map Real.exp","s.logpdf x","C107 pdf")
a("kl","Real.log (o.det / s.det)","Real.log (s.det / o.det)","C107 KL determinants")
a("kl","(P * s.cov).trace - d","(P * s.cov).trace","C107 KL dimension")
a("kl","if s.det = 0 ∨ o.det = 0 then none","if o.det = 0 then none","C107 KL finite",note="log of 0 over det")
a("kl","(s.mean - o.mean) ⬝ᵥ P *ᵥ (s.mean - o.mean)","s.mean ⬝ᵥ P *ᵥ (s.mean - o.mean)","C107 KL mean")
a("kl","0.5 * (Real.log (o","(Real.log (o","C107 KL factor")
a("getMode","s.mean","0","C107 mode")
a("getSample","rand s.mean s.llt n","rand 0 s.llt n","C107 sample mean")
a("getSample","rand s.mean s.llt n","rand s.mean s.cov n","C107 sample factor")
F="Verif/Model/TsvdAdapter.lean"
for k in ["columnScaling","verbose"]:
    a("optionsOf",k+' := (t.bool "%s").getD dflt.%s'%(k,k),k+' := dflt.%s'%k,"C106 option "+k)
a("optionsOf",'epsNorm := (t.double "epsNorm")','epsNorm := (t.double "epsSVD")',"C106 option epsNorm")
a("optionsOf",'epsSVD := (t.double "epsSVD")','epsSVD := (t.double "epsQR")',"C106 option epsSVD")
a("optionsOf",'epsQR := (t.double "epsQR").getD dflt.epsQR','epsQR := (t.double "epsQR").getD dflt.epsSVD',"C106 option default")
a("optionsOf",'svdTol := (t.double "svdTol")','svdTol := (t.double "qrTol")',"C106 option svdTol")
a("optionsOf",'qrTol := (t.double "qrTol").getD dflt.qrTol','qrTol := dflt.qrTol',"C106 option qrTol")
a("buildSystem","e := (lib.build s.jac threads mEst).2","e := s.e","C106 right hand side rebuilt")
a("buildSystem","jac := (lib.build s.jac threads mEst).1, ","","C106 Jacobian rebuilt")
a("solveSystem",".ok (false, dx) s",".ok (true, dx) s","C106 status")
a("solveSystem","lib.solve s.svd m s.e s.marg","lib.solve s.svd m s.e 0","C106 marginal index")
a("solveSystem","lib.solve s.svd m s.e s.marg","lib.solve s.svd m dx s.marg","C106 right hand side used")
a("solveSystem",".ok (true, x) { s1",".ok (true, dx) { s1","C106 solution written")
a("solveSystem","{ s1 with svd := t, live := s1.live - 1 }\n    | .throw ex t => .throw ex { s1 with svd := t }","{ s1 with svd := t }\n    | .throw ex t => .throw ex { s1 with svd := t }","C106 matrix freed")
a("solveSystem","| .throw ex t => .throw ex { s1 with svd := t }\n","| .throw ex t => .throw ex { s1 with svd := t, live := s1.live - 1 }\n","C106 leak on exception")
a("solveSystem","| .throw ex t => .throw ex { s1 with svd := t }\n","| .throw ex t => .ok (false, dx) { s1 with svd := t }\n","C106 exception propagates")
a("solveSystem","| .throw ex t => .throw ex { s1 with svd := t }\n","| .throw ex t => .throw ex { s1 with svd := t, marg := 0 }\n","C106 exception keeps index")
a("initMatrixStructure","svd := lib.clear s.svd, ","","C106 clear on new structure")
a("initMatrixStructure","jac := lib.init s.jac dvs","jac := s.jac","C106 structure initialised")
a("initMatrixStructure","if cond then .abort","if !cond then .abort","C106 conditioner aborts")
a("analyzeMarginal",".ok false s",".ok true s","C106 analysis status")
a("analyzeMarginal","lib.analyze s.svd m s.marg","lib.analyze s.svd m (s.marg + 1)","C106 analysis index")
a("analyzeMarginal","| .throw ex t => .throw ex { s1 with svd := t, live := s1.live - 1 }","| .throw ex t => .throw ex { s1 with svd := t }","C106 no leak in analysis")
a("analyzeMarginal","| .ok _ t => .ok true { s1 with svd := t, live := s1.live - 1 }","| .ok _ t => .ok true { s1 with live := s1.live - 1 }","C106 analysis kept")
F="Verif/Model/Options.lean"
a("readSpline","get (t.double \"splines/transSplineLambda\")","get (t.double \"splines/rotSplineLambda\")","C108 translation lambda")
a("readSpline",".ok ⟨tl, rl, k, o, ro⟩",".ok ⟨rl, tl, k, o, ro⟩","C108 lambdas swapped")
a("readSpline",".ok ⟨tl, rl, k, o, ro⟩",".ok ⟨tl, rl, k, ro, o⟩","C108 orders swapped")
a("readSpline","(t.int \"splines/transSplineOrder\").getD raw","(t.int \"splines/rotSplineOrder\").getD raw","C108 order entry")
a("readSpline","(t.int \"splines/transSplineOrder\").getD raw","raw","C108 order read")
a("readSpline","(t.int \"splines/transSplineOrder\").getD raw","(t.int \"splines/transSplineOrder\").getD 4","C108 default order (the bug fixed)")
a("toU16","z % 65536","z % 65535","C108 conversion")
a("toSize","z % 18446744073709551616","z % 2147483647","C108 conversion")
a("carOptions","flv, frp, frv","frv, frp, flv","C108 variances swapped")
a("carOptions","sv, vy, vz, toU16 co","sv, vz, vy, toU16 co","C108 constraint variances swapped")
a("carOptions","get (t.bool \"usePose\")","get (t.bool \"useVelocities\")","C108 usePose entry")
a("carOptions","odometry/timeDelays/delayBound","delayBound","C108 delay bound entry")
a("carOptions","dp, dv, flp","dv, dp, flp","C108 odometer noise swapped")
a("carOptions","rlwPercentError","rrwPercentError","C108 rear left entry")
a("tdOptions","sp, lw, rw, vy, vz⟩","sp, rw, lw, vy, vz⟩","C108 wheel variances swapped")
a("tdOptions","wss/noise/lwVariance","wss/noise/rwVariance","C108 left variance entry")
a("egoOptions","db, toSize rs, sp","db, 0, sp","C108 reference sensor")
a("egoOptions","(get (t.int \"delayBound\")).bind fun db _ =>","(get (t.int \"referenceSensor\")).bind fun db _ =>","C108 delay bound")
a("egoTraj","[y, p, r, x, yy, z]","[r, p, y, x, yy, z]","C108 angles order")
a("egoTraj","get (t.double \"w_T_v_0/y\")","get (t.double \"w_T_v_0/yaw\")","C108 y entry")
a("egoTraj",".ok ⟨A, f,",".ok ⟨f, A,","C108 amplitude and frequency")
a("egoTraj","get (t.str \"type\")","get (t.str \"kind\")","C108 type entry")
a("tdTraj","get (t.double \"f\")","get (t.double \"A\")","C108 frequency entry")
a("tdTraj","[0, 0, 0, 0, 0, 0]","[0, 0, 0, 0, 0, 1]","C108 start")
json.dump(M,open(sys.argv[1],"w"))
