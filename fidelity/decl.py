import ast
src='/repo/tests/test_declaration.py'
enc=lambda s: ','.join(str(ord(c)) for c in s) or '-'
K={n:n.lower() for n in 'AUTO BLOCK INHERIT INITIAL INLINE LEFT REVERT RIGHT RTL TABLE UNSET REBECCAPURPLE'.split()}
class No(Exception): pass
class U:
    def __init__(s,u,x): s.u=u; s.x=x
class Q:
    def __init__(s,x): s.x=x
def ev(e,env):
    if isinstance(e,ast.Constant): return e.value
    if isinstance(e,ast.Name):
        if e.id in env: return env[e.id]
        if e.id in K: return K[e.id]
        raise No(e.id)
    if isinstance(e,ast.Tuple): return tuple(ev(x,env) for x in e.elts)
    if isinstance(e,ast.List): return [ev(x,env) for x in e.elts]
    if isinstance(e,ast.Set): return {ev(x,env) for x in e.elts}
    if isinstance(e,ast.JoinedStr): return ''.join(ev(x,env) if isinstance(x,ast.Constant) else ev(x.value,env) for x in e.values)
    if isinstance(e,ast.BinOp) and isinstance(e.op,ast.Add): return ev(e.left,env)+ev(e.right,env)
    if isinstance(e,ast.BinOp) and isinstance(e.op,ast.Mult) and e.right.id in('px','percent'): return U('px' if e.right.id=='px' else '%',ev(e.left,env))
    if isinstance(e,ast.Call) and getattr(e.func,'id','')=='Quotes': return Q(ev(e.args[0],env))
    if isinstance(e,ast.Call) and getattr(e.func,'id','')=='sorted': return ev(e.args[0],env)
    if isinstance(e,ast.Call) and getattr(e.func,'attr','')=='lower': return ev(e.func.value,env).lower()
    raise No(ast.dump(e)[:80])
def tok(x):
    if isinstance(x,str): return ['s'+enc(x)]
    if x is None: return ['n']
    if isinstance(x,int): return [f'i{x}']
    if isinstance(x,float): n,d=x.as_integer_ratio(); return [f'f{n}/{d}']
    if isinstance(x,U): return ['u'+x.u]+tok(x.x)
    if isinstance(x,Q): return ['q']+[t for p in x.x for s in p for t in tok(s)]+['.']
    return ['U' if isinstance(x,tuple) else 'L']+[t for y in x for t in tok(y)]+['.']
def style(e,env):
    "the property a node.style.x, node.style[x] or getattr(node.style, x) reads"
    if isinstance(e,ast.Attribute) and isinstance(e.value,ast.Attribute) and e.value.attr=='style': return e.attr
    if isinstance(e,ast.Attribute) and isinstance(e.value,ast.Name) and e.value.id=='obj': return e.attr
    if isinstance(e,ast.Subscript) and isinstance(e.value,ast.Attribute) and e.value.attr=='style': return ev(e.slice,env)
    if isinstance(e,ast.Call) and getattr(e.func,'id','')=='getattr': return ev(e.args[1],env)
out=[];skip=[]
def emit(*a): out.append(' '.join(a))
def stmt(s,env,err):
    exp=err or 'ok'
    if isinstance(s,ast.With):
        c=s.items[0].context_expr
        for b in s.body: stmt(b,env,c.args[0].id)
        return
    if isinstance(s,ast.For):
        for x in ev(s.iter,env):
            env[s.target.id]=x
            for b in s.body: stmt(b,env,err)
        return
    if isinstance(s,ast.ClassDef):
        for a in s.body:
            n=a.targets[0].id
            if not isinstance(a.value,ast.Call): raise No('class')
            kw={k.arg:k.value for k in a.value.keywords}
            ch=kw['choices']; ck={k.arg:k.value for k in ch.keywords}
            ini=kw['initial']
            if isinstance(ini,ast.Call): raise No('initial')
            emit('CHOICES',exp,'|',*[t for x in ch.args for t in tok(ev(x,env))],'|',*[v.id for v in (ck['validators'].elts if 'validators' in ck else [])],'|',
              *[t for x in (ck['explicit_defaulting_constants'].elts if 'explicit_defaulting_constants' in ck else []) for t in tok(ev(x,env))],'|',*tok(ev(ini,env)))
        return
    if isinstance(s,ast.Try):
        c=s.handlers[0].body[0].value
        emit('MSG','s'+enc(ev(c.args[1],env)),'|',*tok(ev(s.body[0].value,env))); return
    if isinstance(s,ast.Delete):
        t=s.targets[0]
        emit('DELITEM' if isinstance(t,ast.Subscript) else 'DEL',exp,style(t,env)); return
    if isinstance(s,ast.Assign):
        t=s.targets[0]
        if isinstance(s.value,ast.Call) and getattr(s.value.func,'id','')=='ExampleNode': emit('NEW'); return
        if isinstance(s.value,ast.Call) and getattr(s.value.func,'id','')=='MyObject': return
        if isinstance(t,ast.Name): env[t.id]=ev(s.value,env); return
        if isinstance(t,ast.Attribute) and t.attr=='dirty': emit('CLEAN',str(ev(s.value,env))); return
        if isinstance(t,ast.Subscript): emit('SETITEM',exp,style(t,env),*tok(ev(s.value,env))); return
        if getattr(t.value,'id','')=='obj': emit('VSET',exp,*tok(ev(s.value,env))); return
        emit('SET',exp,t.attr,*tok(ev(s.value,env))); return
    if isinstance(s,ast.Expr):
        c=s.value
        if isinstance(c,ast.Constant): return
        if isinstance(c,ast.Subscript): emit('GETITEM',exp,style(c,env)); return
        f=c.func
        if getattr(f,'id','')=='setattr': emit('SET',exp,ev(c.args[1],env),*tok(ev(c.args[2],env))); return
        if getattr(f,'id','')=='print': return
        if isinstance(f,ast.Attribute) and f.attr=='update':
            emit('UPDATE',exp,*[t for k in c.keywords for t in (k.arg,*tok(ev(k.value,env)),';')]); return
        if f.attr=='assertNotIsInstance': return
        a=c.args[0]
        if isinstance(a,ast.Attribute) and a.attr=='dirty': emit('DIRTY',{'assertTrue':'True','assertFalse':'False','assertIsNone':'None'}[f.attr]); return
        if f.attr=='assertIsNone': emit('VEQ' if getattr(a.value,'id','')=='obj' else 'EQ',style(a,env),'n'); return
        if f.attr in('assertEqual','assertIs'):
            if isinstance(a,ast.Call) and getattr(a.func,'id','') in('str','repr'):
                b=a.args[0]
                if isinstance(b,ast.Attribute) and b.attr=='style': emit('CSSSTR','s'+enc(ev(c.args[1],env)))
                elif isinstance(b,ast.Attribute) and getattr(b.value,'id','')=='obj': emit('VSTR','s'+enc(ev(c.args[1],env)))
                else: emit('STR' if a.func.id=='str' else 'REPR',style(b,env),'s'+enc(ev(c.args[1],env)))
                return
            if isinstance(a,ast.Attribute) and a.attr in('horizontal','vertical'): emit('SPACE',a.attr,*tok(ev(c.args[1],env))); return
            if isinstance(a,ast.Call) and getattr(a.func,'attr','')=='keys': emit('KEYS',*sorted(ev(c.args[1],env))); return
            if isinstance(a,ast.Call) and getattr(a.func,'id','')=='sorted':
                emit('ITEMS',*[t for n,x in ev(c.args[1],env) for t in (n,*tok(x),';')]); return
            if isinstance(a,ast.Attribute) and getattr(a.value,'id','')=='obj': emit('VEQ',a.attr,*tok(ev(c.args[1],env))); return
            if style(a,env): emit('EQ',style(a,env),*tok(ev(c.args[1],env))); return
    raise No(ast.unparse(s)[:100])
for cls in ast.parse(open(src).read()).body:
    if isinstance(cls,ast.ClassDef):
        for fn in cls.body:
            if isinstance(fn,ast.FunctionDef) and fn.name.startswith('test'):
                n=len(out); out.append('TEST '+fn.name)
                try:
                    env={}
                    for s in fn.body: stmt(s,env,None)
                except (No,KeyError,AttributeError) as e:
                    del out[n:]; skip.append((fn.name,str(e)))
open('decl','w').write('\n'.join(out)+'\n')
print(sum(l.startswith('TEST') for l in out),'tests,',sum(not l.startswith(('TEST','NEW','CLEAN')) for l in out),'steps; left out:',*skip,sep='\n')
