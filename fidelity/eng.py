import ast,re,glob
consts={}
t=ast.parse(open('/repo/src/colosseum/constants.py').read())
for s in t.body:
    if isinstance(s,ast.Assign) and isinstance(s.value,ast.Constant): consts[s.targets[0].id]=s.value.value
enc=lambda s: ','.join(str(ord(c)) for c in s) or '-'
def frac(x):
    n,d=(x,1) if isinstance(x,int) else float(x).as_integer_ratio()
    return f"f{n}/{d}"
def val(e):
    if isinstance(e,ast.Name): return consts[e.id]
    return ast.literal_eval(e)
def v(x): return 's'+enc(x) if isinstance(x,str) else ('i%d'%x if isinstance(x,int) and not isinstance(x,bool) else frac(x))
out=[]
def doc(n,o):
    o.append('B')
    for k,x in n['style']: o.append(f"P {enc(k)} {v(x)}")
    for k,x in n['int'].items(): o.append(f"Z {k} {x if isinstance(x,bool) else v(x)}")
    for c in n['ch']: doc(c,o)
    o.append('E')
def ref(d,o):
    o.append('R '+' '.join(frac(x) for k in ('content','padding_box','border_box') for x in (*d[k]['size'],*d[k]['position'])))
    for c in d.get('children',[]): ref(c,o)
    o.append('r')
for f in glob.glob('/repo/tests/engine/**/test_*.py',recursive=True):
    for cls in ast.parse(open(f).read()).body:
        if not isinstance(cls,ast.ClassDef): continue
        for fn in cls.body:
            if not isinstance(fn,ast.FunctionDef): continue
            env={}; root=None; path=0
            for s in fn.body:
                if isinstance(s,ast.Assign):
                    tg=s.targets[0]
                    if isinstance(tg,ast.Name):
                        c=s.value; assert c.func.id=='ExampleNode'
                        nd={'style':[],'ch':[],'int':{}}
                        for k in c.keywords:
                            if k.arg=='style': nd['style']=[(q.arg,val(q.value)) for q in k.value.keywords]
                            elif k.arg=='children': nd['ch']=[env[x.id] for x in k.value.elts]
                        env[tg.id]=nd
                    else:
                        assert tg.value.attr=='intrinsic'
                        env[tg.value.value.id]['int'][tg.attr]=val(s.value)
                else:
                    c=s.value
                    if getattr(c.func,'attr',None)=='layout_node':
                        root={'style':[('display','block')],'ch':[env[c.args[0].id]],'int':{}}; path=1
                    elif getattr(c.func,'id',None)=='layout': root=env[c.args[1].id]; path=0; assert not c.keywords
                    else:
                        assert c.func.attr=='assertLayout'
                        o=[]; doc(root,o); ref(ast.literal_eval(c.args[1]),o)
                        out.append(f"T {f.split('/')[-1]}:{cls.name}.{fn.name} {path}"); out+=o
open('eng','w').write('\n'.join(out)+'\n'); print(sum(l.startswith('T') for l in out))
