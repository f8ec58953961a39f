#!/usr/bin/env python3
"""Systematic mutation testing of the model definitions.

python3 tools/automutate.py SCRATCH K SEED OUT [file-regex]
For every definition in lean/Verif/Model/*.lean up to K random edits are tried in the scratch copy SCRATCH (outside /verif).
The build is stopped at the first failing declaration that is not an example. One JSON line per attempt is written to OUT:
status 'invalid' (edit does not elaborate in the model file), 'killed', 'example' (only examples fail), 'SURVIVED'."""
import json,os,re,subprocess,sys,random,signal,time
ROOT=os.path.dirname(os.path.dirname(os.path.abspath(__file__)))
SCR,K,SEED,OUT=sys.argv[1],int(sys.argv[2]),int(sys.argv[3]),sys.argv[4]
FR=re.compile(sys.argv[5]) if len(sys.argv)>5 else None
DECL=re.compile(r"^(?:@\[.*?\]\s*)?(?:private\s+|protected\s+|noncomputable\s+)*(theorem|lemma|example|def|instance|abbrev|structure|inductive)\s*([^\s:({\[]*)")
TOP=re.compile(r"^(?:/--|/-!|def |theorem |lemma |end|namespace|section|variable|open|structure|inductive|instance|@\[|set_option|noncomputable|abbrev|private|example|local|scoped|notation|attribute|deriving|import)")
OPS=[(r" < "," ≤ "),(r" ≤ "," < "),(r" > "," ≥ "),(r" ≥ "," > "),(r" \+ "," - "),(r" - "," + "),(r" \* "," + "),(r" / "," * "),
 (r" ∧ "," ∨ "),(r" ∨ "," ∧ "),(r" && "," || "),(r" \|\| "," && "),(r" = "," ≠ "),(r" ≠ "," = "),(r" == "," != "),(r" != "," == "),
 (r"(?<![\w.^])0(?![\w.])","1"),(r"(?<![\w.^])1(?![\w.])","0"),(r"(?<![\w.^])1(?![\w.])","2"),(r"(?<![\w.^])2(?![\w.])","3"),(r"\btrue\b","false"),(r"\bfalse\b","true"),
 (r"\.1\b",".2"),(r"\.2\b",".1"),(r"!(?=[\w(])",""),(r"\bmax\b","min"),(r"\bmin\b","max"),(r"\bsin\b","cos"),(r"\bcos\b","sin"),
 (r"\.take\b",".drop"),(r"\.drop\b",".take"),(r"\bany\b","all"),(r"\ball\b","any"),(r"\.filter\b",".filter fun x => !"),
 (r"\.outOfBound\b",".invalidOperation"),(r"\.invalidOperation\b",".badArgument"),(r"\.nullPointer\b",".invalidOperation"),(r"\.badArgument\b",".outOfBound"),
 (r"\.throw (\.\w+)",".throw .stdOutOfRange"),(r"\.ub\b",".diverge"),(r"(?<=[(⟨,: ])-(?=[\w(])",""),(r"\^ 2","^ 3"),(r"\.head\?",".getLast?"),(r"\.getLast\?",".head?"),
 (r"\b([a-z]+)1\b",r"\1"),(r"\b([a-z]+)2\b",r"\g<1>1"),(r"\b([a-z]+)3\b",r"\g<1>2"),(r"\b([a-z]+)4\b",r"\g<1>3"),(r"\(([a-z]\w*), ([a-z]\w*)\)",r"(\2, \1)"),(r"⟨([^⟨⟩,()]*), ([^⟨⟩,()]*)⟩",r"⟨\2, \1⟩"),
 (r", \w+ := [^,{}()\n]+(?=,| \})",""),(r"\bwith \w+ := [^,{}()\n]+, ","with "),(r" then (\S+) else (\S+)$",r" then \2 else \1"),(r"([\w.]+) \+\+ \[([^\[\]]*)\]",r"\2 :: \1"),(r"\b(\w+) \+\+ (\w+)\b",r"\2 ++ \1"),(r"\bx\b","y"),(r"\by\b","x"),(r"\bz\b","y"),
 (r"\bleft\b","right"),(r"\bright\b","left"),(r"\bLeft\b","Right"),(r"\bfront\b","rear"),(r"\brear\b","front"),(r"\.erase\b",".removeAll [·] |>.erase"),(r"\bneg\b","pos"),(r"(\w+) \+ 1\b",r"\1"),(r"(\w+) - 1\b",r"\1"),(r"\b\.reverse\b","")]
def bodies(s):
    """(name, start, end) of definition bodies"""
    L=s.split("\n"); pos=[0]
    for l in L: pos.append(pos[-1]+len(l)+1)
    i=0
    while i<len(L):
        m=re.match(r"^(?:@\[.*?\]\s*)?(?:private |protected |noncomputable )*(def|abbrev) (\S+)",L[i])
        if m:
            j=i+1
            while j<len(L) and not TOP.match(L[j]) and not L[j].startswith("/-"): j+=1
            a,b=pos[i],pos[j]
            t=s[a:b]
            k=re.search(r":=|\n  \|| where",t)
            if k: yield m.group(2),a+k.end(),b
            i=j
        else: i+=1
def decl_at(path,line):
    L=open(path).read().split("\n")
    for i in range(min(line,len(L))-1,-1,-1):
        m=DECL.match(L[i])
        if m: return m.group(2) if m.group(1)!="example" else "example@%s:%d"%(os.path.basename(path),i+1)
    return "?"
def build(rel):
    p=subprocess.Popen(["lake","build"],cwd=SCR,stdout=subprocess.PIPE,stderr=subprocess.STDOUT,text=True,start_new_session=True)
    failed=[];status=None;t0=time.time()
    for line in p.stdout:
        m=re.match(r"^error: (Verif/[\w/]+\.lean):(\d+):\d+",line)
        if m:
            d=decl_at(os.path.join(SCR,m.group(1)),int(m.group(2)))
            if m.group(1)==rel: status="invalid";break
            if d not in failed: failed.append(d)
            if not d.startswith("example@"): status="killed";break
    if status:
        try: os.killpg(p.pid,signal.SIGKILL)
        except ProcessLookupError: pass
    p.wait()
    if status is None: status="SURVIVED" if p.returncode==0 else ("example" if failed else "crash")
    return status,failed,time.time()-t0
def main():
    subprocess.run(["rm","-rf",SCR],check=True)
    subprocess.run(["cp","-a",ROOT+"/lean",SCR],check=True)
    done=set()
    if os.path.exists(OUT):
        for l in open(OUT):
            d=json.loads(l); done.add((d["file"],d["def"],d["at"],d["new"]))
    for fn in sorted(os.listdir(SCR+"/Verif/Model")):
        if not fn.endswith(".lean") or (FR and not FR.search(fn)): continue
        rel="Verif/Model/"+fn; path=os.path.join(SCR,rel); orig=open(path).read()
        for name,a,b in bodies(orig):
            body=orig[a:b]; c=[]
            for pat,rep in OPS:
                for m in re.finditer(pat,body,re.M):
                    if "--" in body[body.rfind("\n",0,m.start())+1:m.start()]: continue
                    new=m.expand(rep) if "\\" in rep else rep
                    if new!=m.group(0): c.append((m.start(),m.group(0),new,m.end()))
            random.Random("%d%s%s"%(SEED,fn,name)).shuffle(c)
            ok=0;tries=0
            for st,old,new,en in c:
                if ok>=K or tries>=3*K+2: break
                key=(fn,name,st,new)
                if key in done: ok+=1; continue
                open(path,"w").write(orig[:a+st]+new+orig[a+en:])
                status,failed,dt=build(rel)
                open(path,"w").write(orig)
                tries+=1
                if status not in("invalid","crash"): ok+=1
                ln=body.rfind("\n",0,st)+1; le=body.find("\n",en); le=len(body) if le<0 else le
                ctx=body[ln:le].strip(); mut=(body[ln:st]+new+body[en:le]).strip()
                with open(OUT,"a") as g: g.write(json.dumps(dict(file=fn,**{"def":name},at=st,old=old,new=new,line=ctx,mutated=mut,status=status,failed=failed,dt=round(dt,1)),ensure_ascii=False)+"\n")
main()
