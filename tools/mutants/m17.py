F="Model/DataSections"
C="C80"
M=[
("M475",F,"addVars","    if s.hidden then addVars sec data r vars\n    else if s.bind","    if s.bind","hidden symbols become variables",C,[]),
("M476",F,"addVars","else if s.bind ≠ .glob ∧ s.bind ≠ .weak then","else if s.bind ≠ .glob then","weak symbols are skipped",C,[]),
("M477",F,"addVars","else if s.bind ≠ .glob ∧ s.bind ≠ .weak then","else if s.bind = .other then","static symbols become variables",C,[]),
("M478",F,"addVars","    else if (vars.lookup s.name).isSome then .error .duplicate\n","","duplicate check dropped",C,[]),
("M479",F,"addVars","    else if startsWithDot s.name then addVars sec data r vars\n","","compiler-internal symbols become variables",C,[]),
("M480",F,"addVars","if (off + s.size).toNat > data.length","if off.toNat > data.length","bounds check forgets the size",C,[]),
("M481",F,"addVars","    else if s.size.toNat > 0xffffffff then .error .size\n","","size check dropped: off+size may wrap",C,[]),
("M482",F,"addVars","if (off + s.size).toNat > data.length","if (off + s.size).toNat ≥ data.length","last variable of a section rejected",C,[]),
("M483",F,"slice","(data.take (off + size).toNat).drop off.toNat","(data.take size.toNat).drop off.toNat","data[off:size] instead of data[off:off+size]",C,[]),
("M484",F,"addVars","⟨sec.name, off.setWidth 32,","⟨s.name, off.setWidth 32,","section name taken from the symbol",C,[]),
("M485",F,"addTypes","        if d.offset ≠ ev.offset then .error .offsetMismatch\n        else if","        if","Datasec offset not compared",C,[]),
("M486",F,"addTypes","        else if d.size ≠ BitVec.ofNat 32 ev.value.length then .error .sizeMismatch\n","","Datasec size not compared",C,[]),
("M487",F,"addTypes","      | none => addTypes r vars","      | none => .ok vars","stops at the first hidden variable of a Datasec",C,[]),
("M488",F,"addTypes","    else if d.isVar = false then .error .notVar\n","","type of the entry not checked",C,[]),
("M489",F,"contents","List.replicate sec.size.toNat 0#8","[]","no zeroes allocated for .bss",C,[]),
("M490",F,"contents","  | .other => .error .secType","  | .other => .ok []","unknown section types accepted as empty",C,[]),
("M491",F,"isConstant","['.', 'r', 'o', 'd', 'a', 't', 'a']","['.', 'd', 'a', 't', 'a']","wrong prefix for read-only sections",C,[]),
("M492",F,"loadSection","if sec.references = 0 ∧ symbols = [] then","if sec.references = 0 ∨ symbols = [] then","unreferenced sections with variables skipped",C,[]),
("M493",F,"loadSection","if sec.references = 0 ∧ symbols = [] then","if symbols = [] then","referenced sections without symbols skipped",C,[]),
("M494",F,"loadSection","  else if sec.size.toNat > 0xffffffff then .error .tooLarge\n","","size of the section not checked",C,[]),
("M495",F,"assignSymbols","((s.value, s) :: m.filter (fun e => e.1 ≠ s.value))","((s.value, s) :: m)","duplicate addresses kept",C,[]),
("M496",F,"assignSymbols","s.name ≠ \"\" ∧ (s.typ = .notype ∨ s.typ = .object)","(s.typ = .notype ∨ s.typ = .object)","anonymous symbols kept",C,[]),
("M497",F,"assignSymbols","(s.typ = .notype ∨ s.typ = .object)","s.typ = .object","NOTYPE symbols of old LLVM lost",C,[]),
("M498",F,"loadSection","isConstant sec.name, data, true⟩)], vars)","isConstant sec.name, data, true⟩)], st.2)","variables with types dropped",C,[]),
("M499",F,"setType","(n, { v with typ := some t }) :: r else","(n, { v with typ := some t, value := [] }) :: r else","setting the type clears the value",C,[]),
]
