"""Check the citations of the model: for every `name` (File.py La-b) in a doc comment, is `def name`/`class name` in or around these lines?"""
import re, os, ast, sys, glob
R='/repo/pdf2docx'
files={}
for r,_,fs in os.walk(R):
    for f in fs:
        if f.endswith('.py'): files.setdefault(f,[]).append(os.path.join(r,f))
def defs(path):
    out=[]
    t=ast.parse(open(path).read())
    def go(n,pre):
        for c in ast.iter_child_nodes(n):
            if isinstance(c,(ast.FunctionDef,ast.ClassDef,ast.AsyncFunctionDef)):
                s=min([c.lineno]+[d.lineno for d in c.decorator_list])
                out.append((pre+c.name,c.name,s,c.end_lineno)); go(c,pre+c.name+'.')
            else: go(c,pre)
    go(t,''); return out
cache={}
bad=0; ok=0; unk=0
for lf in sorted(glob.glob('/verif/lean/Verif/*.lean')):
    src=open(lf).read()
    for m in re.finditer(r'/--.*?-/|/-!.*?-/',src,re.S):
        c=m.group(0); line=src[:m.start()].count('\n')+1
        last=None
        for k in re.finditer(r'(?:([\w/]+\.py),? )?(?:L(\d+)(?:-(\d+))?)',c):
            f=k.group(1) or last
            if k.group(1): last=f
            if not f: continue
            b=os.path.basename(f)
            ps=[p for p in files.get(b,[]) if p.endswith('/'+f)] or files.get(b,[])
            if len(ps)!=1: unk+=1; print(f'{os.path.basename(lf)}:{line} UNKNOWN FILE {f} {ps}'); continue
            p=ps[0]
            if p not in cache: cache[p]=(defs(p),len(open(p).read().split('\n')))
            ds,n=cache[p]
            a=int(k.group(2)); z=int(k.group(3) or a)
            # identifiers in backticks before the citation
            pre=c[:k.start()]
            ids=re.findall(r'`([\w.]+)',pre)[-1:] 
            name=ids[-1].split('.')[-1] if ids else None
            cand=[d for d in ds if d[1]==name]
            if a>n or z>n: bad+=1; print(f'{os.path.basename(lf)}:{line} BEYOND END {f} L{a}-{z} (file has {n})'); continue
            if cand and not any(d[2]-2<=a and z<=d[3]+2 for d in cand):
                bad+=1; print(f'{os.path.basename(lf)}:{line} `{ids[-1]}` {f} L{a}-{z} but def at {[(d[0],d[2],d[3]) for d in cand]}')
            elif cand: ok+=1
            else:
                inside=[d[0] for d in ds if d[2]<=a and z<=d[3]]
                unk+=1
                if '-v' in sys.argv: print(f'{os.path.basename(lf)}:{line} ? {ids[-1:]} {f} L{a}-{z} inside {inside[-1:]} :: {c[:90]!r}')
print(ok,'ok',bad,'bad',unk,'unknown')
