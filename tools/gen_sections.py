#!/usr/bin/env python3
"""Generates lean/Verif/Model/ElfSectionTable.lean from /repo/elf_sections.go and /repo/internal/sys/types.go."""
import re
vals={}
for l in open('/repo/internal/sys/types.go'):
    m=re.match(r'\s+(BPF_\w+)\s+(ProgType|AttachType)\s*=\s*(\d+)',l)
    if m: vals['sys.'+m.group(1)]=int(m.group(3))
vals['0']=0
flags={'_SEC_NONE':[], '_SEC_ATTACHABLE_OPT':['attachable','expAttachOpt'],'_SEC_ATTACHABLE':['attachable'],'_SEC_ATTACH_BTF':['attachBtf'],'_SEC_SLEEPABLE':['sleepable'],'_SEC_XDP_FRAGS':['xdpFrags'],'_SEC_USDT':['usdt']}
out=[]
for i,l in enumerate(open('/repo/elf_sections.go')):
    m=re.match(r'\s*\{"([^"]*)", (\S+), (\S+), ([^}]*)\}',l)
    if not m: continue
    fs=[]
    for f in m.group(4).split('|'): fs+=flags[f.strip()]
    b='true' if 'sleepable' in fs else 'false'
    x='true' if 'xdpFrags' in fs else 'false'
    chars=', '.join("'%s'"%c for c in m.group(1))
    out.append("  /- %s -/ ⟨[%s], %d, %d, %s, %s⟩"%(m.group(1),chars,vals[m.group(2)],vals[m.group(3)],b,x))
n=len(out)
with open('/verif/lean/Verif/Model/ElfSectionTable.lean','w') as f:
    f.write('''/-!
# The table of section names, generated by tools/gen_sections.py from `elf_sections.go`

Program and attach types are the numbers of `internal/sys/types.go`. Of the flags only those that `getProgType` looks at are kept.
-/
namespace Ebpf.Sections

/-- elf_reader.go:1609-1614 `libbpfElfSectionDef`: pattern, program type, attach type, `_SEC_SLEEPABLE`, `_SEC_XDP_FRAGS`. -/
structure Def where
  pattern : List Char
  progType : Nat
  attachType : Nat
  sleepable : Bool
  xdpFrags : Bool
deriving DecidableEq, Repr

/-- elf_sections.go:9-115 `elfSectionDefs`. -/
def elfSectionDefs : List Def := [
'''+',\n'.join(out)+'''
]

end Ebpf.Sections
''')
print(n)
