#!/usr/bin/env python3
"""Checks the citations of the model against /repo: a docstring that quotes an identifier and line ranges must have one of the ranges overlap a
definition or a use of that identifier, in a file named in the docstring or else in the module; a range that names a whole function must be inside
or around it (2 lines of tolerance)."""
import re,glob,os,subprocess,ast,sys
allpy=subprocess.run("cd /repo && find . -name '*.py' | sed 's,^./,,'",shell=True,capture_output=True,text=True).stdout.split()
allpy=[f for f in allpy if '/tests/' not in f and not f.startswith('docs/')]
lines={};defs={}
def L(f):
    if f not in lines: lines[f]=open('/repo/'+f).read().split('\n')
    return lines[f]
def D(f):
    if f not in defs:
        out={}
        def walk(n):
            for c in ast.iter_child_nodes(n):
                if isinstance(c,(ast.FunctionDef,ast.ClassDef,ast.AsyncFunctionDef)):
                    st=min([c.lineno]+[d.lineno for d in c.decorator_list])
                    out.setdefault(c.name,[]).append((st,c.end_lineno))
                elif isinstance(c,(ast.Assign,ast.AnnAssign)):
                    ts=c.targets if isinstance(c,ast.Assign) else [c.target]
                    for t in ts:
                        if isinstance(t,ast.Name): out.setdefault(t.id,[]).append((c.lineno,c.end_lineno))
                walk(c)
        walk(ast.parse(open('/repo/'+f).read())); defs[f]=out
    return defs[f]
def cands(text):
    out=set()
    for m in re.finditer(r'[\w./{}-]+\.py',text):
        t=m.group(0).lstrip('.').lstrip('/')
        for f in allpy:
            if f.endswith('/'+t) or f==t: out.add(f)
    for m in re.finditer(r'`([\w./-]+)/`',text):
        for f in allpy:
            if m.group(1) in f: out.add(f)
    return out
bad=tot=0
for p in sorted(glob.glob('/verif/lean/Verif/Model/*.lean')):
    s=open(p).read(); fs=cands(s)
    if len(sys.argv)>1 and os.path.basename(p)[:-5] not in sys.argv[1:]: continue
    for m in re.finditer(r'/--((?:(?!-/).)*)-/\s*((?:@\[.*?\]\s*)?(?:private |noncomputable )?(?:def|structure|inductive|abbrev)\s+\S+)',s,re.S):
        doc,d=m.group(1),m.group(2)
        rng=[(int(a),int(b)) for a,b in re.findall(r'(?<![\w.])(\d+)–(\d+)(?![\w.])',doc)]
        rng+= [(int(a),int(a)) for a in re.findall(r'[(:, ](\d{2,4})[),;]',doc)]
        ids=[i.split('.')[-1] for i in re.findall(r'`([A-Za-z_.]\w*(?:\.\w+)*)',doc)]
        ids=[i for i in ids if len(i)>2 and i not in('none','None','int','str','TypeError','ValueError','opentelemetry')]
        if not rng or not ids: continue
        local=cands(doc)&fs or fs
        ds=[(f,i,r) for f in local for i in ids for r in D(f).get(i,[])]
        if ds:
            tot+=1
            if any((a>=st-1 and b<=en+1) or (a<=st+1 and b>=en-1) for a,b in rng for f,i,(st,en) in ds): continue
            bad+=1; print('%s %s cited %s actual %s'%(os.path.basename(p),d.split()[-1],rng,[(i,r,f.split('/')[-2]+'/'+os.path.basename(f)) for f,i,r in ds][:4]))
        else:
            tot+=1
            if any(re.search(r'\b'+re.escape(i)+r'\b','\n'.join(L(f)[max(0,a-2):b+1])) for a,b in rng for f in local for i in ids): continue
            bad+=1; print('%s %s cited %s UNFOUND %s'%(os.path.basename(p),d.split()[-1],rng,ids[:3]))
print(tot,'checked',bad,'suspicious')
