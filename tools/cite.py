import re,ast,sys,glob,os
rep={}
for root,_,fs in os.walk('/repo'):
    for f in fs:
        if f.endswith('.py'): rep.setdefault(f,[]).append(os.path.join(root,f))
defs={}
for f,ps in rep.items():
    for p in ps:
        t=ast.parse(open(p).read())
        for n in ast.walk(t):
            if isinstance(n,(ast.FunctionDef,ast.ClassDef)):
                defs.setdefault(f,[]).append((n.name,n.lineno,n.end_lineno,p))
for lf in sorted(glob.glob('Verif/**/*.lean',recursive=True)):
    for i,l in enumerate(open(lf),1):
        for m in re.finditer(r'([a-z_]+\.py):(\d+)(?:-(\d+))?((?:, ?\d+(?:-\d+)?)*)',l):
            f,a,b=m.group(1),int(m.group(2)),int(m.group(3) or m.group(2))
            ds=[d for d in defs.get(f,[])]
            # find innermost function containing a
            inn=[d for d in ds if d[1]<=a<=d[2]]
            inn.sort(key=lambda d:-d[1])
            print(f"{lf}:{i}: {m.group(0)} -> {inn[0][:3] if inn else None} | {l.strip()[:110]}")
