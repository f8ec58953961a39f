#!/usr/bin/env python3
"""Mutations of the samplers on an ideal stream (C111) and reruns of tightened survivors: writes the JSON list for mutate.py."""
import json,sys
M=[]
def a(d,old,new,claim,**k): M.append(dict(file=F,**{"def":d,"old":old,"new":new,"claim":claim},**k))
F="Verif/Model/NormalMv.lean"
a("setMean","{ s with mean := m }","{ s with mean := -m }","C107 mean",tightened=["C107_parameters"])
a("ctor","{ raw with mean := m } C","raw C","C107 mean",tightened=["C107_parameters"])
F="Verif/Model/SamplingIdeal.lean"
a("uniform","a + u n * (b - a)","a + u n * b","C111 uniform")
a("uniform","if a ≥ b then","if a > b then","C111 rejected")
a("uniform","(n + 1)","n","C111 independence of calls")
a("uniformInt","+ 1 / 2⌋","⌋","C111 rounding")
a("exponential","-Real.log (u i) / rate","-Real.log (u i) * rate","C111 exponential")
a("exponential","if rate ≤ 0","if rate < 0","C111 rejected")
a("exponential","(i + 1)","i","C111 independence of calls")
a("exponential","u i ≠ 0","u i = 0","C111 exponential")
a("geometric","Real.log (1 - p)","Real.log p","C111 geometric")
a("geometric","⌋.toNat","⌋.toNat + 1","C111 geometric")
a("geometric","if p = 1 then 0","if p = 1 then 1","C111 geometric")
a("geometric","(i + 1)","(i + 2)","C111 geometric consumption")
a("prodFrom","* u (n + j)","+ u (n + j)","C111 poisson")
a("prodFrom","| 0 => 1","| 0 => 2","C111 poisson")
a("poisson","Real.exp (-mean)","Real.exp (-mean / 2)","C111 poisson")
a("poisson",".ok (Nat.find h) (n",".ok (Nat.find h + 1) (n","C111 poisson")
a("poisson","n + Nat.find h + 1","n + Nat.find h","C111 independence of calls")
a("polar","2 * x - 1","x","C111 normal")
a("polarS","polar y * polar y","polar y","C111 normal")
a("normal","√variance * polar","variance * polar","C111 normal")
a("normal","-2 * Real.log","-Real.log","C111 normal")
a("normal","≥ 1 ∨ polarS","≥ 2 ∨ polarS","C111 normal")
a("normal","firstRound 2","firstRound 1","C111 normal")
a("normal","(i + 2)","(i + 1)","C111 independence of calls")
a("normals","normal 0 1 u n","normal 0 2 u n","C111 multivariate normal")
a("normals","normals u m n')","normals u m n)","C111 multivariate normal")
a("normalMv","L.mulVec","Lᵀ.mulVec","C111 multivariate normal")
a("normalMv","mean i + L","L","C111 multivariate normal")
a("uniforms","uniforms u l n').bind","uniforms u l n).bind","C111 uniform mv")
a("uniforms","uniform a b u n","uniform b a u n","C111 uniform mv")
a("categoricalLoop","(sum + p)","p","C111 categorical")
a("categoricalLoop","if x > sum","if x < sum","C111 categorical")
a("categorical","∃ p ∈ probs, p < 0","∃ p ∈ probs, p ≤ 0","C111 categorical")
a("categorical","ps p0 1","ps 0 1","C111 categorical")
a("expSum","(y + x)","x","C111 gamma")
a("expSum","exponential 1 u n","exponential 2 u n","C111 gamma")
a("gamma","(y + z) / invScale","(y + z) * invScale","C111 gamma")
a("gamma","(y + z) / invScale","z / invScale","C111 gamma")
a("gamma","|f| > 1 / 2 ^ 52","|f| > 1 / 2 ^ 51","C111 gamma")
a("gamma","gammaAccept f (u i) (u (i + 1))","gammaAccept f (u (i + 1)) (u i)","C111 gamma")
a("gamma","gammaZ f (u i)","gammaZ f (u (i + 1))","C111 gamma")
a("gamma","(y + 0) / invScale","y","C111 gamma")
F="Verif/Model/Sampling.lean"
a("gammaZ","(Real.exp 1 + f) / Real.exp 1","(Real.exp 1 + f)","C111 gamma")
a("gammaZ","p ^ (1 / f)","p ^ f","C111 gamma")
a("gammaZ","(b - p) / f","(b - p) * f","C111 gamma")
a("gammaAccept","z ^ (f - 1)","z ^ f","C111 gamma")
a("gammaAccept","Real.exp (-z)","Real.exp z","C111 gamma")
a("geometric","Real.log (1 - p)","Real.log p","C111 bridge")
a("poisson","(n + Nat.find h + 1)","(n + Nat.find h)","C111 bridge")
json.dump(M,open(sys.argv[1],"w"))
print(len(M))
