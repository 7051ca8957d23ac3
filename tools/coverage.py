"""Regenerates section 5 of DESIGN.md: which source files are modelled, and where."""
import re,glob,os
R='/repo/src/'
files=sorted(glob.glob(R+'gpytoolbox/**/*.py',recursive=True))+sorted(glob.glob(R+'cpp/**/*.cpp',recursive=True))
txt={f:open(f).read() for f in sorted(glob.glob('/verif/lean/Verif/**/*.lean',recursive=True))}
mod,un=[],[]
for f in files:
    b=os.path.basename(f)
    if b=='__init__.py': continue
    c=[os.path.basename(k)[:-5] for k,t in txt.items() if re.search(r'(?<![\w])'+re.escape(b),t) and '/Model/' in k]
    (mod if c else un).append((f[len(R):],c))
out=['## 5. Which code is modelled','',
'Generated by `tools/coverage.py` from the citations in `lean/Verif/Model`: source file → model modules.  Where a file is modelled in part,',
'the comments at the definitions and the note in MANIFEST.json say which part.','']
for f,c in mod: out.append(f'* `{f}` → {", ".join("`"+x+"`" for x in c)}')
out+=['','**Not modelled** (no theorem says anything about them): '+', '.join(f'`{f}`' for f,_ in un)+'.',
'','Of the vendored headers, `cpp/tinyply/tinyply.h` is modelled in `Ply` and `cpp/microstl/microstl.h` in `Stl`; other headers (`.h`) and the external libigl, CGAL, numpy and scipy are not modelled except through the contracts of section 2.','']
d=open('/verif/DESIGN.md').read()
i=d.find('## 5. Which code is modelled')
if i>=0: d=d[:i]
open('/verif/DESIGN.md','w').write(d.rstrip()+'\n\n'+'\n'.join(out))
