import ast
class No(Exception): pass
P={'node':'','child1':'0','child2':'1','grandchild1_1':'0.0','grandchild1_2':'0.1'}
def where(e):
    "(path, attribute) of self.x.layout.attr"
    if isinstance(e,ast.Attribute) and isinstance(e.value,ast.Attribute) and e.value.attr in('layout','intrinsic') and getattr(e.value.value,'attr',None) in P:
        return '/'+P[e.value.value.attr],('' if e.value.attr=='layout' else 'intrinsic.')+e.attr
    raise No(ast.unparse(e)[:80])
ev=ast.literal_eval
n=lambda x: '-' if x is None else 'T' if x is True else 'F' if x is False else str(x.as_integer_ratio()[0])+'/'+str(x.as_integer_ratio()[1])
out=[];skip=[]
def stmt(s):
    if isinstance(s,ast.Assign):
        t=s.targets[0]
        if isinstance(t,ast.Attribute) and t.attr=='maxDiff': return
        if isinstance(t,ast.Attribute) and (t.attr in P or t.attr in('children','layout')): return
        p,a=where(t); out.append(f"SET {p} {a} {n(ev(s.value))}"); return
    if isinstance(s,ast.Expr):
        c=s.value; f=c.func.attr
        if f=='assertLayout':
            p='/'+P[c.args[0].value.attr]; d=ev(c.args[1])
            for k,v in d.items():
                if k=='origin': out.append(f"IS {p} _origin_left {n(v[0])}"); out.append(f"IS {p} _origin_top {n(v[1])}")
                elif k=='size':
                    for b,w in v.items():
                        for q,x in zip(('width','height'),w): out.append(f"IS {p} {'content' if b=='content' else b+'_box'}_{q} {n(x)}")
                else:
                    for b,w in v.items():
                        for q,x in zip(('top','right','bottom','left'),w): out.append(f"IS {p} {'absolute_' if k=='absolute' else ''}{'content' if b=='content' else b+'_box'}_{q} {n(x)}")
            return
        if f=='assertSize':
            for a,x in zip(('width','height','exact_width','exact_height','ratio','is_replaced'),ev(c.args[1])): out.append(f"IS / intrinsic.{a} {n(x)}")
            return
        if f in('assertTrue','assertFalse','assertIsNone'):
            p,a=where(c.args[0]); out.append(f"IS {p} {a.replace('intrinsic.','')} {dict(assertTrue='T',assertFalse='F',assertIsNone='-')[f]}"); return
        if f=='assertEqual' and not isinstance(c.args[0],ast.BinOp):
            p,a=where(c.args[0]); out.append(f"IS {p} {a} {n(ev(c.args[1]))}"); return
    raise No(ast.unparse(s)[:100])
for cls in ast.parse(open('/repo/tests/test_dimensions.py').read()).body:
    if isinstance(cls,ast.ClassDef):
        up=[f for f in cls.body if isinstance(f,ast.FunctionDef) and f.name=='setUp'][0]
        for fn in cls.body:
            if isinstance(fn,ast.FunctionDef) and fn.name.startswith('test'):
                out.append('NEW '+('one' if cls.name=='SizeTests' else 'tree')+' '+fn.name)
                for s in up.body+fn.body:
                    try: stmt(s)
                    except (No,ValueError,AttributeError) as e: skip.append(fn.name+': '+str(e))
open('dim','w').write('\n'.join(out)+'\n'); print(len(out),'left out:',*skip,sep='\n')
