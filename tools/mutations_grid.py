#!/usr/bin/env python3
"""Edits of Model/Grid.lean and Model/Small.lean: python3 tools/mutations_grid.py > /tmp/mut/grid.json"""
import json
M=[]
def m(file,d,old,new,claim,**k): M.append(dict(file="Verif/Model/"+file,**{"def":d},old=old,new=new,claim=claim,**k))
G="Grid.lean"; S="Small.lean"
m(G,"Grid.ctor","decide (r ≤ zero)","decide (r < zero)","C24: a zero resolution must be refused")
m(G,"Grid.ctor","decide (a ≥ b)) mn mx","decide (a > b)) mn mx","C24: an empty interval must be refused")
m(G,"Grid.ctor","fun r d => decide (r > d)","fun r d => decide (r ≥ d)","C24: resolution equal to the range is accepted")
m(G,"Grid.numCell","A.ceil (A.div (A.sub mx mn) rs)","A.trunc (A.div (A.sub mx mn) rs)","the cells cover the range (last partial cell dropped)")
m(G,"Grid.numCell","A.ceil (A.div (A.sub mx mn) rs)","A.ceil (A.div (A.sub mx mn) rs) + 1","number of cells")
m(G,"Grid.totLoop","acc * (n %","acc + (n %","storage size is the product of the dimensions")
m(G,"Grid.linProd","| _ :: ns =>\n    match prodFrom ns 1","| n :: ns =>\n    match prodFrom (n :: ns) 1","distinct cells have distinct storage")
m(G,"Grid.isInRange","decide (a ≤ b)) p g.mx","decide (a < b)) p g.mx","the maximum is in range")
m(G,"Grid.isInRange","decide (a ≥ b)) p g.mn","decide (a > b)) p g.mn","the minimum is in range")
m(G,"Grid.isValidIndex","decide (a < b)) idx g.num","decide (a ≤ b)) idx g.num","index past the end refused")
m(G,"Grid.index1","if p = mx then n - 1","if p = mx then n","maximum lies in the last cell")
m(G,"Grid.index1","if p = mx then n - 1 else A.trunc","A.trunc","maximum lies in the last cell")
m(G,"Grid.getIndex","else if !g.isInRange p then .throw .outOfBound ()\n","","out of range point refused")
m(G,"Grid.coordLoop","A.centre m i r :: coordLoop A is mn rs","A.centre m (i+1) r :: coordLoop A is mn rs","coordinates are the centre of the cell")
m(G,"flArith.centre","fl (i + 1/2)","fl (i + 1)","coordinates are the centre of the cell")
m(G,"intArith.centre","truncQ (m + (i + 1/2) * r)","truncQ (m + i * r)","coordinates are the centre of the cell (integers)")
m(G,"Grid.linLoop","(acc + (l * i %","(acc + (l + i %","distinct cells have distinct storage")
m(G,"Grid.modifyCell","g.cells.modify k f","g.cells.modify (k-1) f","writing a cell changes that cell and no other")
m(G,"Grid.reset","g.cells.map fun _ => dflt","g.cells","reset restores the default everywhere")
m(G,"Grid.reset","g.cells.map fun _ => dflt","g.cells.drop 1 |>.map fun _ => dflt","reset keeps the number of cells")
m(G,"Grid.incLoop","if i + 1 < n then","if i + 1 ≤ n then","iteration visits exactly the valid indices")
m(G,"Grid.incLoop","(incLoop is ns).map (0 :: ·)","(incLoop is ns).map (i :: ·)","iteration visits exactly the valid indices")
m(G,"Histogram.addSample","h.modifyCell idx (· + 1)","h.modifyCell idx (· + 2)","a sample adds one")
m(G,"Histogram.addSample","else if h.isInRange x then","else if !h.isInRange x then","out-of-range samples are ignored")
m(G,"Histogram.addSamples","(addSample A h x).bind fun _ h' => addSamples A xs h'","(addSample A h x).bind fun _ h' => addSamples A (xs.drop 1) h'","every sample is counted")
m(G,"Histogram.getSum","sumLoop h.cells 0","sumLoop h.cells.tail 0","sum of all bins")
m(G,"Histogram.getNormalized","h.cells.map (· / getSum h)","h.cells.map (· / h.tot)","normalised histogram sums to one")
m(G,"Histogram.meanBody","mean + x * c","mean + x","C51 weighted mean")
m(G,"Histogram.getMean","fdiv m (getSum h)","fdiv m h.tot","C51 mean")
m(G,"Histogram.getVariance","getSum h - 1","getSum h","C51 sample variance")
m(G,"Histogram.varBody","v + (x - mean) * (x - mean) * c","v + (x - mean) * c","C51 sample variance")
m(G,"Histogram.modeBody","if c > mx then","if c < mx then","C51/C53 the mode")
m(G,"Histogram.modeBody","if c > mx then","if c ≥ mx then","C51 first of the equal bins")
m(G,"Histogram.medianBody","if s.1 + c ≥ getSum h * (1/2)","if s.1 + c > getSum h * (1/2)","C51 median")
m(G,"Histogram.medianBody","if s.1 + c ≥ getSum h * (1/2)","if s.1 ≥ getSum h * (1/2)","C51 median")
m(G,"roundEven","if ⌊x⌋ % 2 = 0 then ⌊x⌋ else ⌊x⌋ + 1","⌊x⌋ + 1","double rounding (ties)")
m(S,"VecDV.setValue","⟨v, s.value⟩","⟨v, s.old⟩","revert after set restores the previous value")
m(S,"VecDV.update","⟨List.zipWith add s.value dp, s.value⟩","⟨List.zipWith add s.value dp, s.old⟩","revert undoes the update")
m(S,"VecDV.update","List.zipWith add s.value dp","List.zipWith add s.old dp","update adds to the current value")
m(S,"VecDV.revert","⟨s.old, s.old⟩","⟨s.value, s.old⟩","revert undoes the update")
m(S,"VecDV.setParameters","m.length ≠ 1 ∨ rows ≠ s.value.length","m.length ≠ 1","setParameters refuses a wrong size")
m(S,"VecDV.setParameters","⟨m.headD [], s.value⟩","⟨m.headD [], s.old⟩","revert after setParameters")
m(S,"VecDV.minimalDimensions","s.value.length","s.value.length + 1","minimal dimension is the size")
m(S,"categoricalLoop","if u > sum then","if u ≥ sum then","category boundaries")
m(S,"categoricalLoop","(sum + p) (i + 1) else i - 1","(sum + p) (i + 1) else i","category returned")
m(S,"categoricalLoop","| [], _, i => i - 1","| [], _, i => i","category in range")
m(S,"sampleCategorical","|probs.sum - 1| > 1 / 1000000000000 ∨ ","","unnormalised probabilities refused")
m(S,"sampleCategorical","decide (p < 0)","decide (p ≤ 0)","zero probabilities accepted")
m(S,"uniformDraw","r / 2147483647","r / 2147483648","upper end reachable")
m(S,"sampleUniformReal","if a ≥ b then","if a > b then","empty support refused")
m(S,"sampleUniformReal","a + uniformDraw r * (b - a)","a + uniformDraw r * b","sample in the support")
m(S,"sampleUniformInt","a + roundHalfUp (uniformDraw r * ((b - a : Int) : ℚ))","a + roundHalfUp (uniformDraw r * ((b - a : Int) : ℚ)) + 1","sample in the support")
m(S,"roundHalfUp","⌊x + 1 / 2⌋","⌊x⌋","upper bound reached only at the single largest draw")
m(S,"logFactLoop","Real.log (x + 1)","Real.log x","log factorial")
m(S,"logFactorial","logFactLoop (n - 1) 1 0","logFactLoop n 1 0","log factorial")
m(S,"logGammaNat","logFactorial (n - 1)","logFactorial n","log gamma")
m(S,"logGammaNat","if n ≠ 0 then .ok","if n ≠ 1 then .ok","gamma pole refused")
m(S,"toTimespec","(s - truncQ s) * 1000000000","s * 1000000000","nanoseconds below one second")
m(S,"toTimespec","(s - truncQ s) * 1000000000","(s - truncQ s) * 1000000","nanoseconds")
m(S,"sumLogLoop","|R i i| > 1 / 2 ^ 52","R i i > 1 / 2 ^ 52","negative diagonal entries count")
m(S,"computeSumLogDiagR","else if e ≥ cols then .throw","else if e > cols then .throw","column range checked")
m(S,"computeSumLogDiagR","(e + 1 - b) b 0","(e - b) b 0","inclusive end")
m(S,"computeSumLogDiagR","if b ≥ e then","if b > e then","empty column range refused")
print(json.dumps(M,ensure_ascii=False))
