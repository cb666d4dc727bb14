#!/usr/bin/env python3
"""Automatic mutation sweep: automut.py SEED PERFILE [Model names...]. Small syntactic edits of definitions under Verif/Model in a scratch copy;
results are appended to /tmp/am/out.jsonl (killed / example-only / SURVIVED / invalid). Survivors are looked at by hand."""
import random,re,sys,os,glob,json,subprocess,signal,time
MUT="/tmp/am/lean"; OUT="/tmp/am/out.jsonl"
seed=int(sys.argv[1]); per=int(sys.argv[2]); names=sys.argv[3:] or sorted(os.path.basename(f)[:-5] for f in glob.glob("/tmp/am/base/Verif/Model/*.lean"))
def blank(s):
    """comments replaced by spaces (same length)"""
    s=re.sub(r"/-.*?-/",lambda m:re.sub(r"[^\n]"," ",m.group(0)),s,flags=re.S)
    return re.sub(r"--[^\n]*",lambda m:" "*len(m.group(0)),s)
RULES=[(r" ≤ "," < "),(r" < "," ≤ "),(r" ≥ "," > "),(r" > "," ≥ "),(r" ∧ "," ∨ "),(r" ∨ "," ∧ "),(r" && "," || "),(r" \|\| "," && "),
 (r"(?<=[^:]) = "," ≠ "),(r" ≠ "," = "),(r" == "," != "),(r" != "," == "),(r" \+ 1\b",""),(r" - 1\b",""),(r" \+ "," - "),(r" - "," + "),
 (r"\btrue\b","false"),(r"\bfalse\b","true"),(r"\bif not ","if "),(r"(?<![\w.])!(?=[\w(])",""),(r"¬ ?",""),(r"\.isSome\b",".isNone"),(r"\.isNone\b",".isSome"),
 (r"\.head\?",".getLast?"),(r"\.getLast\?",".head?"),(r"\.all\b",".any"),(r"\.any\b",".all"),(r"\.filter\b",".filterNot" ),(r"\bmax\b","min"),(r"\bmin\b","max")]
def muts(s):
    b=blank(s); res=[]
    # only inside def/abbrev/instance bodies
    spans=[]; ls=0; cur=None
    for line in b.split("\n"):
        m=re.match(r"(?:@\[[^\]]*\] )?(?:private |protected |noncomputable |partial )*(def|abbrev|theorem|lemma|structure|inductive|instance|example|namespace|end|open|section|variable|mutual)\b\s*([^\s:({\[]*)",line)
        if m:
            if cur: spans.append((cur[0],ls,cur[1]))
            cur=(ls,m.group(2)) if m.group(1) in("def","abbrev") else None
        ls+=len(line)+1
    if cur: spans.append((cur[0],ls,cur[1]))
    for a,z,n in spans:
        t=b[a:z]; k=t.find(":="); k2=t.find("\n  |"); st=min(x for x in (k,k2,len(t)) if x>=0)
        for r,new in RULES:
            for m in re.finditer(r,t):
                if m.start()<st: continue
                if r.startswith(r"\.filter") : continue
                if r==r"(?<=[^:]) = " and t[max(0,m.start()-60):m.start()].rfind("let ")>max(0,0) and False: continue
                res.append((n,a+m.start(),a+m.end(),new))
        for m in re.finditer(r'"([^"\n]*)"',t):
            if m.start()<st: continue
            x=m.group(1); res.append((n,a+m.start(),a+m.end(),'"'+(x[:-1]+("y" if x[-1:]!="y" else "z") if x and x[-2:-1]!="\\" else x+"y")+'"'))
        for m in re.finditer(r"(?<![\w.'\]?])(\d+)(?![\w.'])",t):
            if m.start()<st: continue
            res.append((n,a+m.start(),a+m.end(),str(int(m.group(1))+1)))
        # drop an appended operand:  X ++ Y  (Y a simple bracket/ident)
        for m in re.finditer(r" \+\+ (\[[^\[\]\n]*\]|[\w.']+)(?=[\s,)}]|$)",t):
            if m.start()<st: continue
            res.append((n,a+m.start(),a+m.end(),""))
        # drop a field update
        for m in re.finditer(r"\{ (\w[\w.]*) with ([^{}]*)\}",t):
            if m.start()<st: continue
            fs=re.split(r",\s*(?=[\w.]+ :=)|\n\s*(?=[\w.]+ :=)",m.group(2).strip())
            for i in range(len(fs)):
                g=fs[:i]+fs[i+1:]
                res.append((n,a+m.start(),a+m.end(),("{ %s with %s }"%(m.group(1),", ".join(g))) if g else m.group(1)))
        # then/else swap on one line
        for m in re.finditer(r"if ([^\n]*?) then ([^\n]*?) else (?!if)([^\n]*)",t):
            if m.start()<st: continue
            res.append((n,a+m.start(),a+m.end(),"if %s then %s else %s"%(m.group(1),m.group(3),m.group(2)) if m.group(3).count("(")==m.group(3).count(")") else m.group(0)))
        # match arm:  | p => e   replaced by the next arm's right-hand side
        arms=list(re.finditer(r"^(\s*\| [^\n]*?=> )([^\n]+)$",t,re.M))
        for x,y in zip(arms,arms[1:]):
            if x.start()<st-2 or x.group(2).strip()==y.group(2).strip() or x.group(2).rstrip().endswith(("by","do","then","with","fun")): continue
            res.append((n,a+x.start(2),a+x.end(2),y.group(2)))
    return [r for r in res if s[r[1]:r[2]]!=r[3]]
def build():
    """first failing theorem, or verdict"""
    p=subprocess.Popen("exec nice -n 5 lake build Verif",shell=True,cwd=MUT,stdout=subprocess.PIPE,stderr=subprocess.STDOUT,text=True,start_new_session=True)
    ex=[]; t0=time.time(); verdict=None
    def kill():
        try: os.killpg(p.pid,signal.SIGKILL)
        except ProcessLookupError: pass
    signal.signal(signal.SIGALRM,lambda *_:(_ for _ in ()).throw(TimeoutError())); signal.alarm(1500)
    try:
        for l in p.stdout:
            m=re.match(r"error: (?:\./)?(Verif/\S+?\.lean):(\d+):(\d+): (.*)",l)
            if not m: continue
            L=open(MUT+"/"+m.group(1)).read().split("\n"); ln=int(m.group(2)); kind=name=None
            for i in range(ln-1,-1,-1):
                q=re.match(r"(?:@\[[^\]]*\] )?(?:private |protected |noncomputable )*(theorem|lemma|def|abbrev|structure|inductive|instance|example)\b\s*([^\s:({\[]*)",L[i])
                if q: kind,name=q.group(1),q.group(2); break
            if kind=="example": ex.append(m.group(1)+":"+m.group(2)); continue
            if "/Model/" in m.group(1): verdict=("invalid",name+": "+m.group(4)[:100]); break
            if kind in("theorem","lemma"): verdict=("killed",name); break
            verdict=("killed","("+str(kind)+") "+str(name)); break
    except TimeoutError: verdict=("timeout","")
    signal.alarm(0); kill(); p.wait()
    if verdict: return verdict
    if ex: return ("example-only"," ".join(ex))
    return ("SURVIVED","") if p.returncode==0 else ("odd",str(p.returncode))
todo=[]
rnd=random.Random(seed)
for n in names:
    s=open(f"/tmp/am/base/Verif/Model/{n}.lean").read(); ms=muts(s); rnd.shuffle(ms)
    todo+= [(n,s)+m for m in ms[:per]]
rnd.shuffle(todo)
done=set()
if os.path.exists(OUT):
    for l in open(OUT): d=json.loads(l); done.add((d['file'],d['old'],d['new'],d['ctx']))
print(len(todo),"mutants",flush=True)
for n,s,d,a,z,new in todo:
    ctx=s[max(0,a-60):z+40]
    if (n,s[a:z],new,ctx) in done: continue
    subprocess.run(f"rm -rf {MUT} && cp -a /tmp/am/base {MUT}",shell=True)
    f=f"{MUT}/Verif/Model/{n}.lean"
    if open(f).read()!=s: continue
    open(f,"w").write(s[:a]+new+s[z:])
    v=build()
    open(OUT,"a").write(json.dumps(dict(file=n,defn=d,old=s[a:z],new=new,ctx=ctx,verdict=v[0],why=v[1]),ensure_ascii=False)+"\n")
    print(v[0],n,d,"::",repr(s[a:z])[:60],"=>",repr(new)[:60],v[1][:80],flush=True)
