import json
M="Verif/Model/GammaCdf.lean"
S="Verif/Model/Stats.lean"
L=[]
def a(f,d,o,n,c,**k): L.append(dict(file=f,**{"def":d},old=o,new=n,claim=c,**k))
a(M,"incomplete","t ^ (a - 1)","t ^ a","C112: kernel exponent")
a(M,"incomplete","Real.exp (-t)","Real.exp t","C112: kernel sign")
a(M,"IncGamma.ctor",": IncGamma := ⟨alpha⟩\n\n/-- `setAlpha`",": IncGamma := ⟨alpha + 1⟩\n\n/-- `setAlpha`","C112: constructor stores the parameter")
a(M,"IncGamma.setAlpha","def setAlpha (_f : IncGamma) (alpha : ℝ) : IncGamma := ⟨alpha⟩","def setAlpha (_f : IncGamma) (_alpha : ℝ) : IncGamma := ⟨_f.alpha⟩","C112: setter drops the update")
a(M,"IncGamma.valueP","if f.alpha ≤ 0 ∨ x < 0 then .throw .external ()\n  else .ok (incomplete f.alpha (Set.Ioc 0 x)","if f.alpha < 0 ∨ x < 0 then .throw .external ()\n  else .ok (incomplete f.alpha (Set.Ioc 0 x)","C112: domain, parameter zero")
a(M,"IncGamma.valueP","if f.alpha ≤ 0 ∨ x < 0 then .throw .external ()\n  else .ok (incomplete f.alpha (Set.Ioc 0 x)","if f.alpha ≤ 0 ∨ x ≤ 0 then .throw .external ()\n  else .ok (incomplete f.alpha (Set.Ioc 0 x)","C112: domain, argument zero")
a(M,"IncGamma.valueP","incomplete f.alpha (Set.Ioc 0 x)","incomplete f.alpha (Set.Ioi x)","C112: upper instead of lower integral")
a(M,"IncGamma.valueQ","incomplete f.alpha (Set.Ioi x)","incomplete f.alpha (Set.Ioc 0 x)","C112: lower instead of upper integral")
a(M,"IncGamma.valueQ","(incomplete f.alpha (Set.Ioi x) / Real.Gamma f.alpha)","(incomplete f.alpha (Set.Ioi x))","C112: not normalised")
a(M,"boostQuantile","* scale) ()","/ scale) ()","C112: quantile divides by the scale")
a(M,"GammaD.cdf","if value ≤ 0 then .ok 0 ()","if value ≤ 1 then .ok 0 ()","C112: zero up to one")
a(M,"GammaD.cdf","if value ≤ 0 then .ok 0 ()","if value ≤ 0 then .ok 1 ()","C112: one below zero")
a(M,"GammaD.cdf","(value * s.invScale)","(value / s.invScale)","C112: scale instead of inverse scale")
a(M,"GammaD.cdf","(value * s.invScale)","value","C112: scale forgotten")
a(M,"GammaD.cdf","IncGamma.ctor s.shape","IncGamma.ctor s.invScale","C112: wrong parameter")
a(M,"GammaD.invcdf","if p < 0 ∨ p > 1","if p < 0","C112: upper check missed")
a(M,"GammaD.invcdf","if p < 0 ∨ p > 1","if p ≤ 0 ∨ p > 1","C112: zero rejected")
a(M,"GammaD.invcdf","if p < 0 ∨ p > 1","if p < 0 ∨ p ≥ 1","C112: one rejected as bad argument")
a(M,"GammaD.invcdf","(1.0 / s.invScale)","s.invScale","C112: inverse scale passed as scale")
a(M,"GammaD.invcdf","(1.0 / s.invScale) p","(1.0 / s.invScale) (1 - p)","C112: complement passed")
a(M,"GammaD.getMedian","2.0 / (9 *","2.0 / (3 *","C112: wrong constant in the median")
a(M,"GammaD.getMedian",") ^ 3",") ^ 2","C112: wrong exponent in the median")
a(M,"GammaD.getMedian","(1.0 - 2.0","(1.0 + 2.0","C112: sign in the median")
a(S,"GammaD.kl","(o.shape - 1) * digamma o.shape","(o.shape - 1) * digamma s.shape","C112: the correct divergence (the theorem about the defect must fail)")
a(S,"GammaD.kl","(s.shape - 1) * digamma s.shape","s.shape * digamma s.shape","C112: divergence first term")
a(S,"GammaD.digamma","deriv Real.Gamma x / Real.Gamma x","deriv Real.Gamma x","C112: digamma without division")
a(S,"GammaD.setInvScale","⟨s.shape, r,","⟨s.shape, s.invScale,","C112/C57: setter drops the update")
json.dump(L,open("/tmp/mut/gammacdf.json","w"),ensure_ascii=False)
