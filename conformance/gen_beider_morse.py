import re,json
s=open('/repo/src/beider_morse/engine.rs').read()
# DATA
i=s.index('static ref DATA'); j=s.index('fn test_encode()')
data=[]
for m in re.finditer(r'\(\s*"((?:[^"\\]|\\.)*)",\s*"((?:[^"\\]|\\.|\\\n\s*)*)",\s*NameType::(\w+),\s*RuleType::(\w+),\s*(true|false),\s*(\w+)\s*\)',s[i:j],re.S):
    data.append(m.groups())
rows=[]
for v,e,nt,rt,cc,mx in data:
    e=re.sub(r'\\\n\s*','',e)
    rows.append((v,e,nt.lower(),rt.lower(),cc,20 if not mx.isdigit() else int(mx),None))
# helper tests
k=s.index('fn test_solr_generic')
body=s[k:]
args={}
for m in re.finditer(r'BTreeMap::new\(\)|args\.insert\("(\w+)",\s*"([^"]*)"\)|encode_helper\(config_files, args, (true|false), "([^"]*)"\),\s*"((?:[^"\\]|\\\n\s*)*)"',body):
    if m.group(0).startswith('BTreeMap'): args={}
    elif m.group(1): args[m.group(1)]=m.group(2)
    else:
        nt={'gen':'generic','ash':'ashkenazi','sep':'sephardic'}[args.get('nameType','gen')]
        rt=args.get('ruleType','approx')
        ls=args.get('languageSet'); ls=None if ls in(None,'auto') else ls.split(',')
        rows.append((m.group(4),re.sub(r'\\\n\s*','',m.group(5)),nt,rt,m.group(3),20,ls))
print(len(data),len(rows))
def q(x): return json.dumps(x,ensure_ascii=False)
out='import Verif.Model.BMEngine\nopen Verif Verif.BM\n'
out+='def vectors : List (String × String × NameType × RuleType × Bool × Nat × Option (List String)) := [\n'
out+=',\n'.join(f'({q(v)},{q(e)},.{nt},.{rt},{cc},{mx},{"none" if ls is None else "some ["+", ".join(map(q,ls))+"]"})' for v,e,nt,rt,cc,mx,ls in rows)
out+=']\n'
out+=open('beider_morse_main.lean.in').read()
open('/tmp/Run.lean','w').write(out)
