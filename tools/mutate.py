#!/usr/bin/env python3
"""Mutation harness. usage: mutate.py FILE.json  -- a list of {file, def, old, new, claim, targets?, tightened?}.
Each edit is applied to a scratch copy of /verif/lean (outside /verif), rebuilt, and one line is added to seeded/LOG.jsonl."""
import json,sys,subprocess,re,os,glob
MUT="/tmp/mut"
def sh(c): return subprocess.run(c,shell=True,capture_output=True,text=True)
def decls():
    """(file, line, fullname, body) of every declaration"""
    out=[]
    for f in glob.glob(MUT+"/Verif/**/*.lean",recursive=True):
        L=open(f).read().split("\n"); cur=None
        for n,l in enumerate(L,1):
            m=re.match(r"(?:@\[[^\]]*\] )?(?:private |protected |noncomputable )*(theorem|lemma|def|abbrev|structure|inductive|instance|example)\s*([^\s:({\[]*)",l)
            if m:
                cur=[f,n,m.group(2) or "example@%d"%n,m.group(1),[]]; out.append(cur)
            if cur: cur[4].append(l)
    return out
def main():
    muts=json.load(open(sys.argv[1]))
    for mu in muts:
        sh(f"rm -rf {MUT} && cp -a /verif/lean {MUT}")
        p=f"{MUT}/Verif/{mu['file']}"
        s=open(p).read()
        if s.count(mu['old'])<1: print("NOT FOUND",mu['def'],mu['old'][:60]); continue
        if s.count(mu['old'])>1 and not mu.get('all'):
            i=s.find("def "+mu['def']); j=s.find(mu['old'],i)
            if i<0 or j<0: print("AMBIGUOUS",mu['def']); continue
            s=s[:j]+mu['new']+s[j+len(mu['old']):]
        else: s=s.replace(mu['old'],mu['new'])
        open(p,"w").write(s)
        r=sh(f"cd {MUT} && timeout 1500 lake build {' '.join(mu.get('targets',['Verif']))}")
        t=r.stdout+r.stderr
        D=decls(); failed=set(); failfiles=set(); modelerr=[]
        for m in re.finditer(r"error: (?:\./)?(Verif/\S+?\.lean):(\d+):(\d+): (.*)",t):
            f=MUT+"/"+m.group(1); ln=int(m.group(2))
            c=[d for d in D if d[0]==f and d[1]<=ln]
            if c:
                d=max(c,key=lambda d:d[1])
                if d[3] in("def","structure","inductive","abbrev","instance") : modelerr.append((d[2],m.group(4)))
                failed.add(d[2]); failfiles.add(f)
        # transitive users
        names={d[2].split(".")[-1]:d for d in D}
        bad={x.split(".")[-1] for x in failed}; ch=True
        imp={}
        for d in D:
            if d[0] not in imp: imp[d[0]]={MUT+"/"+m.replace(".","/")+".lean" for m in re.findall(r"^import (Verif\S+)",open(d[0]).read(),re.M)}
        def closure(f,acc):
            for g in imp.get(f,()):
                if g not in acc: acc.add(g); closure(g,acc)
            return acc
        clo={f:closure(f,{f}) for f in imp}
        users={(d[0],d[2].split(".")[-1]) for d in D if d[2] in failed and d[0] in failfiles}
        toks={id(d):set(re.findall(r"[A-Za-z_][A-Za-z_0-9'!?]*","\n".join(d[4]))) for d in D}
        while ch:
            ch=False
            for d in D:
                n=d[2].split(".")[-1]
                if (d[0],n) not in users and d[3] in("theorem","lemma") and any(f in clo[d[0]] and x in toks[id(d)] for f,x in users):
                    users.add((d[0],n)); ch=True
        props=sorted(x for _,x in users if re.match(r"C\d\d+_",x))
        direct=sorted(x for x in bad)
        rec=dict(definition=mu['def'],file="lean/Verif/"+mu['file'],edit=mu.get('edit') or f"{mu['old']}  ==>  {mu['new']}",claim_broken=mu['claim'],
                 theorems_failed=direct, property_theorems_blocked=props, theorems_tightened=mu.get('tightened',[]))
        if mu.get('note'): rec['note']=mu['note']
        surv = not failed
        print(("SURVIVED " if surv else "killed   ")+mu['def']+" :: "+rec['edit'][:70].replace("\n","⏎"),"->",direct[:6],"| props",props[:6], ("MODELERR %s"%modelerr) if modelerr else "", "TIMEOUT/other" if surv and r.returncode else "",flush=True)
        if modelerr or (surv and r.returncode): continue
        if surv and not mu.get('accept'): continue   # tighten first, then log
        open("/verif/seeded/LOG.jsonl","a").write(json.dumps(rec,ensure_ascii=False)+"\n")
main()
