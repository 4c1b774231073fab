import json,os
os.chdir(os.path.dirname(os.path.abspath(__file__)))
ns={}; exec(open('design_methods.py').read(),ns)
cl={c['property']:c for c in json.load(open('../MANIFEST.json'))['claims']}
out=open('design_head.md').read().replace('@@MODULES@@\n',''.join('| `%s` | %s |\n'%m for m in ns['MODULES']))
out+="| property | modelled / method | status | remarks |\n|---|---|---|---|\n"
for l in open('../properties.jsonl'):
    p=json.loads(l); c=cl[p['id']]
    mods=sorted({t.rsplit('.',1)[0].replace('Verif.','') for t in c['theorems']})
    out+="| **%s** %s | %s (`%s`) | %s | %s |\n"%(p['id'],p['title'],ns['METH'][p['id']],', '.join(mods),c['status'],c['note'])
out+='\n'+open('design_tail.md').read()
open('../DESIGN.md','w').write(out)
