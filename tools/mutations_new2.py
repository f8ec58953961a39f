#!/usr/bin/env python3
"""Mutations of the log-gamma function and the camera validation program: writes the JSON list for mutate.py."""
import json,sys
M=[]
def a(d,old,new,claim,**k): M.append(dict(file=F,**{"def":d,"old":old,"new":new,"claim":claim},**k))
F="Verif/Model/LogGamma.lean"
a("lgamma","x = -(n : ℝ)","x = (n : ℝ)","C109 poles")
a("lgamma","Real.log |Real.Gamma x|","Real.log |Real.Gamma (x + 1)|","C109 lgamma")
a("sumLoop","a - 0.5 * i","a - i","C109 arguments")
a("sumLoop","a - 0.5 * i","a + 0.5 * i","C109 arguments")
a("sumLoop","s + g","s - g","C109 sum")
a("sumLoop","sumLoop a k (i + 1)","sumLoop a k i","C109 index")
a("sumLoop","| 0, _, sum => sum","| 0, i, sum => sum.bind fun s => (lgamma (a - 0.5 * i)).map fun g => s + g","C109 number of terms")
a("pairs","(d * ((d + 18446744073709551615) % 18446744073709551616)) % 18446744073709551616","d * (d - 1)","C109 wrapping")
a("pairs","18446744073709551615) %","1) %","C109 pairs")
a("getValue","* 0.25 *","* 0.5 *","C109 factor")
a("getValue","sumLoop a d 0","sumLoop a d 1","C109 start")
a("getValue","Real.log Real.pi","Real.log 2","C109 pi")
a("getValue","s + (pairs","s - (pairs","C109 sign")
F="Verif/Model/CameraValMain.lean"
a("resultImage","getLast?","head?","C110 image shown")
a("step","(v.addImage env.isPos f.found).1","v","C110 image added")
a("step","| none => .ok [(f.stamp, resultImage v')] v'","| none => .ok [(f.stamp, resultImage v)] v'","C110 file shows the new state")
a("step","if vis then","if true then","C110 files only with visualisation")
a("step","if save then","if !save then","C110 files only if asked")
a("step","| some ex => .throw ex v'","| some ex => .ok [] v'","C110 failing write")
a("step","| some ex => .throw ex v'","| some ex => .throw ex v","C110 failing write keeps data")
a("step","[(f.stamp,","[(f.id,","C110 name of the file")
a("step","(v.addImage env.isPos f.found).1","if f.found.isSome then (v.addImage env.isPos f.found).1 else Val.init 0 0","C110 undetected images")
a("loop","files ++ w","w ++ files","C110 order of files")
a("loop","files ++ w","w","C110 all files")
a("loop","loop env vis save fs (files ++ w) v'","loop env vis save fs (files ++ w) v","C110 state threaded")
a("program","Val.init size sigma2","Val.init 0 sigma2","C110 size")
a("program","if out then v.errors else []","v.errors","C110 files")
a("program","if out then v.md2 else []","if out then [] else v.md2","C110 md2 file")
a("program","v.mean, v.std","v.std, v.mean","C110 statistics")
a("program","v.maxX, v.maxY","v.maxY, v.maxX","C110 maxima")
a("program","v.numOutliers q","v.numOutliers (-q)","C110 outliers")
json.dump(M,open(sys.argv[1],'w'))
