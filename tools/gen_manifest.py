#!/usr/bin/env python3
"""Writes MANIFEST.json; checks that every theorem named exists in lean/Verif/Props."""
import json,os,re,glob
root=os.path.join(os.path.dirname(os.path.abspath(__file__)),"..")
M=[]
def m(p,status,ths,note=""): M.append(dict(property=p,status=status,theorems=["Verif."+t for t in ths.split()],note=note))
exec(open(os.path.join(root,"tools","manifest_entries.py")).read())
names=set()
for f in glob.glob(os.path.join(root,"lean/Verif/**/*.lean"),recursive=True):
    ns=[]
    for l in open(f):
        a=re.match(r"namespace (\S+)",l)
        if a: ns.append(a.group(1))
        a=re.match(r"end (\S+)",l)
        if a and ns and ns[-1]==a.group(1): ns.pop()
        a=re.match(r"(?:@\[[^\]]*\] )?(?:private )?theorem (\S+)",l)
        if a: names.add(".".join(ns+[a.group(1)]))
for c in M:
    out=[]
    for t in c["theorems"]:
        cand=[n for n in names if n==t or n.split(".")[-1]==t.split(".")[-1]]
        if len(cand)!=1: print("MISSING" if not cand else "AMBIGUOUS",t,cand)
        out.append(cand[0] if cand else t)
    c["theorems"]=out
ids=[json.loads(l)["id"] for l in open(os.path.join(root,"properties.jsonl"))]
have=[c["property"] for c in M]
print("unclaimed:",[i for i in ids if i not in have]); print("unknown:",[h for h in have if h not in ids])
json.dump({"claims":M},open(os.path.join(root,"MANIFEST.json"),"w"),indent=1)
