import ast,math
UN={'ch','cm','em','ex','inch','mm','pc','percent','pt','px','vh','vmax','vmin','vw','deg','grad','rad','turn'}
sf=lambda u:{'inch':'in','percent':'%'}.get(u,u)
class No(Exception): pass
class F:
    def __init__(s,k,z): s.v=(z,.65*z,.71*z) if k=='Helvetica' else (z,.75*z,.75*z)
class D:
    def __init__(s,dpi,width,height): s.v=(dpi,width,height)
class U:
    def __init__(s,u,x): s.u=u; s.x=x
def ev(e,env):
    if isinstance(e,ast.Constant): return e.value
    if isinstance(e,ast.Name): 
        if e.id in UN: return U(e.id,1)
        return env[e.id]
    if isinstance(e,ast.Attribute) and getattr(e.value,'id','')=='math': return math.pi
    if isinstance(e,ast.Attribute) and getattr(e.value,'id','')=='self': return env['self.'+e.attr]
    if isinstance(e,ast.UnaryOp) and isinstance(e.op,ast.USub):
        x=ev(e.operand,env); return U(x.u,-x.x) if isinstance(x,U) else -x
    if isinstance(e,ast.BinOp):
        a,b=ev(e.left,env),ev(e.right,env)
        if isinstance(e.op,ast.Mult): return U(b.u,a*b.x) if isinstance(b,U) and not isinstance(a,U) else a*b
        if isinstance(e.op,ast.Div): return a/b
    if isinstance(e,ast.Call) and getattr(e.func,'id','')=='Display': return D(**{k.arg:ev(k.value,env) for k in e.keywords})
    if isinstance(e,ast.Call) and getattr(e.func,'id','') in('Helvetica','Courier'): return F(e.func.id,ev(e.args[0],env))
    if isinstance(e,ast.Call) and getattr(e.func,'attr','')=='dup': return U(ev(e.func.value,env).u,ev(e.args[0],env))
    raise No(ast.unparse(e))
def num(x):
    if isinstance(x,int): return f'i{x}'
    n,d=x.as_integer_ratio(); return f'f{n}/{d}'
un=lambda p: f'{sf(p.u)} {num(p.x)}'
enc=lambda s: ','.join(str(ord(c)) for c in s) or '-'
out=[];skip=[]
def stmt(s,env):
    if isinstance(s,ast.Assign):
        t=s.targets[0]
        env['self.'+t.attr if isinstance(t,ast.Attribute) else t.id]=ev(s.value,env); return
    if isinstance(s,ast.Expr):
        f=s.value.func.attr; a,b=s.value.args
        if isinstance(a,ast.Call) and getattr(a.func,'id','') in('str','repr'): out.append(f"STR {un(ev(a.args[0],env))} {enc(ev(b,env))}"); return
        if isinstance(a,ast.Call) and a.func.attr in('lu','px'):
            kw={k.arg:ev(k.value,env) for k in a.keywords}
            d=kw.get('display'); n=kw.get('font')
            out.append(f"{a.func.attr.upper()} {un(ev(a.func.value,env))} {' '.join(map(num,d.v if d else (1,1,1)))} {' '.join(map(num,n.v if n else (1,1,1)))} {num(kw['size']) if 'size' in kw else '-'} {num(ev(b,env))}"); return
        if isinstance(a,ast.Call) and a.func.attr=='deg': out.append(f"DEG {un(ev(a.func.value,env))} {num(ev(b,env))}"); return
        p,q=ev(a,env),ev(b,env)
        out.append(f"{'EQ' if f=='assertEqual' else 'NE'} {un(p)} "+(un(q) if isinstance(q,U) else '- '+num(q))); return
    raise No(ast.unparse(s)[:60])
for cls in ast.parse(open('/repo/tests/test_units.py').read()).body:
    if isinstance(cls,ast.ClassDef):
        env={}
        for fn in cls.body:
            if isinstance(fn,ast.FunctionDef) and (fn.name=='setUp' or fn.name.startswith('test')):
                for s in fn.body:
                    try: stmt(s,env)
                    except No as e: skip.append(str(e))
open('unit','w').write('\n'.join(out)+'\n'); print(len(out),'left out:',*skip,sep='\n')
