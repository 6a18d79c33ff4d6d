import os,json,re,ast,collections
root='/repo/tests'
enc=lambda s: ','.join(str(ord(c)) for c in s) or '-'
def frac(x):
    if x is None: return 'none'
    n,d=(x,1) if isinstance(x,int) else float(x).as_integer_ratio()
    return f"f{n}/{d}"
out=[];keys=collections.Counter();n=0;types=collections.Counter()
def doc(d,o):
    if 'tag' not in d: return
    o.append('B')
    for k,v in d['style'].items():
        keys[k]+=1; types[type(v).__name__]+=1
        o.append(f"P {enc(k)} {enc(v)}")
    for c in d.get('children',[]): doc(c,o)
    o.append('E')
def ref(d,o):
    if 'content' not in d: o.append('X'); return
    o.append('R '+' '.join(frac(x) for k in ('content','padding_box','border_box') for x in (*d[k]['size'],*d[k]['position'])))
    for c in d.get('children',[]): ref(c,o)
    o.append('r')
for dp,dn,fn in os.walk(root+'/web_platform'):
    groups=[]
    for f in fn:
        if f.endswith('.py'):
            groups+=re.findall(r'find_tests\(\s*__file__,\s*"([^"]*)"\s*\)',open(dp+'/'+f).read())
    if not groups: continue
    def rd(name):
        try: return {l.strip() for l in open(dp+'/'+name) if l.strip()}
        except OSError: return set()
    xf=rd('not_implemented')|rd('not_compliant'); ig=rd('not_valid')
    norm=lambda s: s.replace('-','_')
    xf={norm(x) for x in xf}; ig={norm(x) for x in ig}
    if not os.path.isdir(dp+'/data'): continue
    for filename in sorted(os.listdir(dp+'/data')):
        found=False
        for g in groups:
            if g.endswith('-'): found|= "-".join(filename.split("-")[:-1]) == g[:-1]
            else: found|= "-".join(filename.split(".")[:-1]) == g
        nm=norm(os.path.splitext(filename)[0])
        if not found or nm in ig: continue
        data=json.load(open(dp+'/data/'+filename)); r=json.load(open(dp+'/ref/'+filename))
        o=[]
        doc(data['test_case'],o); ref(r,o)
        out.append(f"T {dp[len(root)+14:]}/{filename} {0 if nm in xf else 1}"); out+=o; n+=1
open('w3c','w').write('\n'.join(out)+'\n')
print(n,sum(1 for l in out if l.startswith('T') and l.endswith('1')),types)
css=set(re.findall(r'^    (\w+) = ',open('/repo/src/colosseum/declaration.py').read(),re.M))|set(re.findall(r'^    def (\w+)',open('/repo/src/colosseum/declaration.py').read(),re.M))
print([k for k in keys if k in css and k in ('content','update','copy','keys','items','set')], len(keys), sorted(k for k in keys if k in css))
