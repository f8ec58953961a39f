#!/usr/bin/env python3
"""Prints the axioms of every theorem named in MANIFEST.json (needs a built lean/) and writes AXIOMS.md."""
import json,os,re,subprocess,collections
root=os.path.join(os.path.dirname(os.path.abspath(__file__)),"..")
ths=[t for c in json.load(open(os.path.join(root,"MANIFEST.json")))["claims"] for t in c["theorems"]]
ths=list(dict.fromkeys(ths))
open("/tmp/ax.lean","w").write("import Verif\n"+"\n".join("#print axioms "+t for t in ths)+"\n")
out=subprocess.run(["lake","env","lean","/tmp/ax.lean"],cwd=os.path.join(root,"lean"),capture_output=True,text=True).stdout
out=re.sub(r"\n\s+"," ",out)
g=collections.OrderedDict()
n=0
for l in out.splitlines():
    a=re.match(r"'(\S+)' depends on axioms: \[(.*)\]",l); b=re.match(r"'(\S+)' does not depend on any axioms",l)
    if a: g.setdefault(", ".join(sorted(x.strip() for x in a.group(2).split(","))),[]).append(a.group(1)); n+=1
    elif b: g.setdefault("none",[]).append(b.group(1)); n+=1
    else: print("??",l)
assert n==len(ths),(n,len(ths))
with open(os.path.join(root,"AXIOMS.md"),"w") as f:
    f.write("# Axioms of the theorems in MANIFEST.json\n\nGenerated with `#print axioms` by `tools/gen_axioms.py`.\n")
    for k in sorted(g): f.write("\n## %s\n\n"%k+" ".join("`%s`"%t.replace("Verif.","",1) for t in g[k])+"\n")
print({k:len(v) for k,v in g.items()})
