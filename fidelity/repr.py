import random,struct
from fractions import Fraction
random.seed(7)
xs=[]
while len(xs)<4000:
    k=random.randrange(6)
    if k==0: x=struct.unpack('d',struct.pack('Q',random.getrandbits(64)))[0]
    elif k==1: x=random.uniform(-1000,1000)
    elif k==2: x=random.randrange(-10**6,10**6)/64
    elif k==3: x=random.randrange(1,10**random.randrange(1,25))*1.0
    elif k==4: x=float(f"{random.randrange(1,10**random.randrange(1,6))}e{random.randrange(-12,30)}")
    else: x=2.0**random.randrange(-200,200)
    if x!=x or x in(float('inf'),float('-inf')) or (x!=0 and abs(x)<1e-300): continue
    xs.append(x)
open('in.txt','w').write('\n'.join("%d %d"%x.as_integer_ratio() for x in xs)+'\n')
open('exp.txt','w').write('\n'.join(repr(x) for x in xs)+'\n')
