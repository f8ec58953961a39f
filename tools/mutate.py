#!/usr/bin/env python3
"""Mutation testing: python3 tools/mutate.py tools/mutations_X.json
Applies each edit to a scratch copy of lean/ outside /verif, rebuilds, reports the declarations in which errors
occur and appends one line per attempt to seeded/LOG.jsonl."""
import json,os,re,subprocess,sys,shutil
ROOT=os.path.dirname(os.path.dirname(os.path.abspath(__file__)))
SCR="/tmp/mut/lean"
def sync():
    os.makedirs(SCR,exist_ok=True)
    subprocess.run(["rsync","-a","--delete",ROOT+"/lean/",SCR+"/"],check=True) if shutil.which("rsync") else (shutil.rmtree(SCR),shutil.copytree(ROOT+"/lean",SCR,symlinks=True))
DECL=re.compile(r"^(?:@\[.*?\]\s*)?(?:private\s+|protected\s+|noncomputable\s+)*(theorem|lemma|example|def|instance|abbrev|structure|inductive)\s*([^\s:({\[]*)")
def decl_at(path,line):
    L=open(path).read().split("\n"); 
    for i in range(min(line,len(L))-1,-1,-1):
        m=DECL.match(L[i])
        if m:
            return m.group(2) if m.group(1)!="example" else "example@%s:%d"%(os.path.basename(path),i+1)
    return "?"
def run(muts):
    for mu in muts:
        f=os.path.join(SCR,mu["file"]); orig=open(f).read()
        n=orig.count(mu["old"])
        if n<1: print("NOT FOUND",mu["def"],mu["old"]); continue
        if n>1 and "nth" not in mu:   # first occurrence inside the named definition
            m=re.search(r"def (?:[\w.]*\.)?%s\b"%re.escape(mu["def"]),orig)
            k=orig.find(mu["old"],m.start()) if m else -1
            if k<0: print("AMBIGUOUS",n,mu["def"],mu["old"]); continue
            mu["nth"]=orig[:k].count(mu["old"])
        if "nth" in mu:
            parts=orig.split(mu["old"]); k=mu["nth"]
            new=mu["old"].join(parts[:k+1])+mu["new"]+mu["old"].join(parts[k+1:])
        else: new=orig.replace(mu["old"],mu["new"])
        open(f,"w").write(new)
        p=subprocess.run(["lake","build"],cwd=SCR,capture_output=True,text=True)
        out=p.stdout+p.stderr
        failed=[]
        for m in re.finditer(r"^error: (Verif/[\w/]+\.lean):(\d+):\d+",out,re.M):
            d=decl_at(os.path.join(SCR,m.group(1)),int(m.group(2)))
            if d not in failed: failed.append(d)
        open(f,"w").write(orig)
        rec={"definition":mu["def"],"edit":mu["old"].strip()+"  -->  "+mu["new"].strip(),"breaks":mu["claim"],
             "failed":failed,"built":p.returncode==0,"tightened":mu.get("tightened",[])}
        if "note" in mu: rec["note"]=mu["note"]
        print(("SURVIVED " if p.returncode==0 else "killed   ")+mu["def"],"|",rec["edit"],"|",failed,flush=True)
        with open(ROOT+"/seeded/LOG.jsonl","a") as g: g.write(json.dumps(rec,ensure_ascii=False)+"\n")
sync()
run(json.load(open(sys.argv[1])))
