import ast
FUN={'units','color','rect','quotes','border_spacing','uri','cursor','outline','border','border_top','border_left','border_right','border_bottom'}
enc=lambda s: ','.join(str(ord(c)) for c in s) or '-'
UN={'ch','cm','em','ex','inch','mm','pc','percent','pt','px','vh','vmax','vmin','vw'}
def frac(x):
    n,d=x.as_integer_ratio(); return f"f{n}/{d}"
class No(Exception): pass
def v(e,env):
    if isinstance(e,ast.Name) and e.id in env: return v(env[e.id],env)
    if isinstance(e,ast.Constant):
        x=e.value
        if isinstance(x,str): return ['s'+enc(x)]
        if x is None: return ['n']
        if isinstance(x,bool): raise No
        if isinstance(x,int): return [f'i{x}']
        if isinstance(x,float): return [frac(x)]
    if isinstance(e,(ast.List,ast.Tuple)):
        r=['L' if isinstance(e,ast.List) else 'U']
        for x in e.elts: r+=v(x,env)
        return r+['.']
    if isinstance(e,ast.BinOp) and isinstance(e.op,ast.Mult) and isinstance(e.right,ast.Name) and e.right.id in UN:
        return [f"u{'in' if e.right.id=='inch' else '%' if e.right.id=='percent' else e.right.id}"]+v(e.left,env)
    raise No
out=[];skip=0
def walk(stmts,env,err):
    global skip
    for s in stmts:
        if isinstance(s,ast.With):
            c=s.items[0].context_expr
            nm=c.args[0].id if getattr(c.func,'attr','')=='assertRaises' else None
            walk(s.body,env,nm); continue
        if isinstance(s,(ast.For,ast.Try)):
            for c in ast.walk(s):
                if isinstance(c,ast.Call) and (getattr(c.func,'id',None) in FUN|{'func'}): skip+=1
            continue
        if isinstance(s,ast.Assign) and isinstance(s.targets[0],ast.Name) and not isinstance(s.value,ast.Call): env[s.targets[0].id]=s.value
        for c in ast.walk(s):
            if not isinstance(c,ast.Call): continue
            f=getattr(c.func,'attr',None) if isinstance(c.func,ast.Attribute) and getattr(c.func.value,'id','')=='parser' else getattr(c.func,'id',None)
            if isinstance(c.func,ast.Attribute) and c.func.attr.startswith('assertEqual') and c.func.attr in('assertEqualUnits','assertEqualColor','assertEqualHSL'):
                f={'assertEqualUnits':'units'}.get(c.func.attr,'color'); a=c.args[0]
                try:
                    l=v(a,env); 
                    exp=' '.join(v(c.args[1],env)) if f=='units' else '?'
                    out.append(f"{f} ok {exp} | {' '.join(l)}")
                except No: skip+=1
                continue
            if f in FUN and len(c.args)==1:
                try: out.append(f"{f} {'ok ?' if not err else err+' ?'} | {' '.join(v(c.args[0],env))}")
                except No: skip+=1
for cls in ast.parse(open('/repo/tests/test_parser.py').read()).body:
    if isinstance(cls,ast.ClassDef):
        for fn in cls.body:
            if isinstance(fn,ast.FunctionDef) and fn.name.startswith('test'): walk(fn.body,{},None)
open('par','w').write('\n'.join(out)+'\n'); print(len(out),skip)
