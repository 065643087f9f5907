"""Which theorems of MANIFEST.json are not applied to a concrete case in any `example`?"""
import re,glob,json,os
root=os.path.join(os.path.dirname(__file__),'..')
m=json.load(open(os.path.join(root,'MANIFEST.json')))
names=[]
for c in m['claims']:
    for t in c['theorems']:
        if t not in names: names.append(t)
used=set()
for f in glob.glob(os.path.join(root,'lean/Verif/**/*.lean'),recursive=True):
    s=open(f).read()
    blocks=re.split(r'\n(?=(?:theorem|def|example|/--|end|section|namespace|attribute|variable|/-!|instance|private|abbrev|structure|inductive|set_option|open)\b|/-)',s)
    for b in blocks:
        if b.startswith('example') or b.startswith('theorem ex'):
            for w in re.findall(r"[A-Za-z_][\w'.]*",b): used.update(w.split('.'))
miss=[t for t in names if t.split('.')[-1] not in used and 'counterexample' not in t]
print(len(names),'theorems,',len(miss),'not applied in an example')
byf={}
for f in glob.glob(os.path.join(root,'lean/Verif/**/*.lean'),recursive=True):
    s=open(f).read()
    for t in miss:
        if re.search(r'theorem (_root_\.NdHist\.)?'+re.escape(t.split('.')[-1])+r'\b',s): byf.setdefault(os.path.relpath(f,root),[]).append(t)
for f in sorted(byf): print(f,len(byf[f]),*byf[f])
