#!/usr/bin/env python3
import json
F="Verif/Model/Sampling.lean"
L=[
("exponential","-Real.log (unit k (rand i) : ℚ) / rate","-Real.log (unit k (rand i) : ℚ) * rate","C67 exponential tail"),
("exponential","-Real.log (unit k (rand i) : ℚ) / rate","-Real.log (1 - unit k (rand i) : ℚ) / rate","C67 exponential tail at the ends (log 0)"),
("exponential","if rate ≤ 0 then .throw","if rate < 0 then .throw","C67 rejects non-positive rates"),
("exponential","/ rate) (i + 1)","/ rate) (i + 2)","C67 consumption"),
("geometric","if p ≤ 0 ∨ p > 1 then","if p ≤ 0 ∨ p ≥ 1 then","C67 geometric accepts p = 1"),
("geometric","⌊Real.log (unit k (rand i) : ℚ) / Real.log (1 - p)⌋.toNat","⌈Real.log (unit k (rand i) : ℚ) / Real.log (1 - p)⌉.toNat","C67 geometric tail (floor -> ceil)"),
("geometric","Real.log (1 - p)⌋","Real.log p⌋","C67 geometric tail"),
("geometric","if p = 1 then 0 else","if p = 1 then 1 else","C67 geometric with p = 1"),
("prodFrom","unit k (rand (n + j))","unit k (rand n)","C67 Poisson uses fresh draws"),
("poisson","if mean ≤ 0 then .throw","if mean < 0 then .throw","C67 Poisson rejects"),
("poisson",".ok (Nat.find h) (n + Nat.find h + 1)",".ok (Nat.find h + 1) (n + Nat.find h + 1)","C67 Poisson off by one (return k)"),
("poisson","Real.exp (-mean) then","Real.exp (mean) then","C67 Poisson threshold"),
("polarU","2 * unit k (rand i) - 1","unit k (rand i)","C67 normal uses the whole disc"),
("polarS","polarU k rand (i + 1) * polarU k rand (i + 1)","polarU k rand i * polarU k rand (i + 1)","C67 normal s"),
("normal","√variance * (polarU k rand i : ℚ)","variance * (polarU k rand i : ℚ)","C67 normal scale"),
("normal","(polarS k rand i ≥ 1 ∨ polarS k rand i = 0)","(polarS k rand i > 1 ∨ polarS k rand i = 0)","C67 normal rejects the circle"),
("normal","√(-2 * Real.log","√(-1 * Real.log","C67 Box-Muller factor"),
("normal","if variance ≤ 0 then","if variance < 0 then","C67 normal rejects"),
("normalMv","L.mulVec (fun j","L.transpose.mulVec (fun j","C67 multivariate covariance"),
("normalMv","mean i + L","L","C67 multivariate mean"),
("normals","(normals rand m n').bind","(normals rand m n).bind","C67 multivariate uses fresh draws"),
("gammaZ","some (-Real.log ((b - p) / f))","some (Real.log ((b - p) / f))","C67 gamma nonnegative"),
("gamma","if shape ≤ 0 then","if shape < 0 then","C67 gamma rejects"),
("gamma","else if invScale ≤ 0 then .throw .badArgument n","","C67 gamma rejects"),
("getSeed","if p.seeded i then p else","if true then p else","C68 false claims (clock)"),
("Act.run","| .setSeed _ s => (none, { p with gen := lib.srandom s })","| .setSeed _ s => (none, p)","C68 setSeed"),
("Act.run","| .construct _ _ => (none, p)","| .construct _ s => (none, { p with gen := lib.srandom s })","C68 constructor ignores the seed"),
("unit","(roundHalfUp (uniformDraw r * 1) : ℚ)","uniformDraw r","C67 integer types"),
]
print(json.dumps([dict(zip(("def","old","new","claim"),x))|{"file":F} for x in L],ensure_ascii=False))
