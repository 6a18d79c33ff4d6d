import random, math
from fractions import Fraction
random.seed(7)
enc=lambda s: ','.join(str(ord(c)) for c in s) or '-'
def num(x):
    if isinstance(x,int): return f"i{x}"
    if math.isinf(x): return "I-" if x<0 else "I+"
    if math.isnan(x): return "N"
    n,d=x.as_integer_ratio(); return f"f{n}/{d}"
out=[]
alpha=list("0123456789..eE+-__ \t\n\x0b\x0c\x1c\x1fxXaAbfF%")
seeds=["inf","Infinity","nan","-inf","1_0","1e5","0x1f","  12 ","+3.","-.5","1__0","_1","1_","1_.5","1._5","1e_5","1e+5","1e-","1.5e3_0","  \x1c1","0_0","١"]
def rs():
    if random.random()<.15:
        s=list(random.choice(seeds[:-1]))
        for _ in range(random.randint(0,2)):
            i=random.randint(0,len(s)); 
            if random.random()<.5 and s: s[i%len(s)]=random.choice(alpha)
            else: s.insert(i,random.choice(alpha))
        return ''.join(s)
    n=random.randint(0,7)
    a=alpha if random.random()<.4 else list("0123456789.e-+_ ")
    return ''.join(random.choice(a) for _ in range(n))
def t(f):
    try: return f()
    except ValueError: return None
for _ in range(60000):
    s=rs()
    r=t(lambda: float(s)); out.append(f"F {enc(s)} {'x' if r is None else num(r)}")
    r=t(lambda: int(s)); out.append(f"I {enc(s)} {'x' if r is None else num(r)}")
    s2=s[:2]
    r=t(lambda: int(s2,16)); out.append(f"H {enc(s2)} {'x' if r is None else num(r)}")
    out.append(f"S {enc(s)} {'|'.join(enc(w) for w in s.split()) or 'empty'}")
    out.append(f"T {enc(s)} {enc(s.strip())}")
    c=random.choice("._ e")
    out.append(f"O{ord(c)} {enc(s)} {'|'.join(enc(w) for w in s.split(c))}")
    out.append(f"P {enc(s)} {enc(s.rstrip('%'))}")
    out.append(f"L {enc(s)} {enc(s.lower())}")
    p=random.choice(["1","11","e","  ","0.",".."]); out.append(f"C{enc(p)} {enc(s)} i{s.count(p)}")
    out.append(f"R{enc(p)} {enc(s)} {enc(s.replace(p,''))}")
def rn():
    k=random.random()
    if k<.3: return random.randint(-200,200)
    if k<.4: return random.randint(-2**60,2**60)
    if k<.6: return random.randint(-6400,6400)/64
    if k<.8: return random.uniform(-1000,1000)
    if k<.9: return random.choice([.1,.5,1.5,2.5,-.5,-1.5,1e16,2**53+2.0,1/3,0.0])
    return random.uniform(-1,1)*10**random.randint(-5,20)
for _ in range(40000):
    a,b=rn(),rn()
    out.append(f"+ {num(a)} {num(b)} {num(a+b)}")
    out.append(f"m {num(a)} {num(b)} {num(a-b)}")
    out.append(f"* {num(a)} {num(b)} {num(a*b)}")
    c=random.choice([64,72,100,100.0,60.0,0xff])
    out.append(f"/ {num(a)} {num(c)} {num(a/c)}")
    out.append(f"2 {num(a)} {num(a//2)}")
    out.append(f"r {num(a)} {num(round(a))}")
    out.append(f"t {num(a)} {num(int(a))}")
    out.append(f"M {num(a)} {num(b)} {num(max(a,b))}")
    out.append(f"n {num(a)} {num(b)} {num(min(a,b))}")
    out.append(f"< {num(a)} {num(b)} i{int(a<b)}")
    out.append(f"s {enc(str(a)) if isinstance(a,int) else '-'} {num(a)}")
open('cases','w').write('\n'.join(out)+'\n')
print(len(out))
