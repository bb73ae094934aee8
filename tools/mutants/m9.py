F = "Model/ElfReader"
C = "C66/C67 relocations"
M = [
 ("M309", F, "jumpTarget", "i.cons * 8#64 + (off + 8#64)", "i.cons * 8#64 + off", "jump relative to the current instruction", C, []),
 ("M310", F, "referenceRelativeJump", "else .ok (withRef (mapIns i fun j => { j with cons := BitVec.allOnes 64 }) name)", "else .ok (withRef i name)", "constant not blinded", C, []),
 ("M311", F, "relocCall", "(((i.p.ins.cons.setWidth 32 + 1#32).signExtend 64) * 8#64)", "((i.p.ins.cons.setWidth 32).signExtend 64 * 8#64)", "off by one instruction in section calls", C, []),
 ("M312", F, "relocData", "cons := off.setWidth 64 <<< 32, src", "cons := off.setWidth 64, src", "offset in the wrong half", C, []),
 ("M313", F, "relocData", "{ j with cons := off.setWidth 64 <<< 32, src := Ins.PseudoMapValue }) target.name", "{ j with cons := off.setWidth 64 <<< 32, src := Ins.PseudoMapValue }) rel.name", "data reference by symbol name", C, []),
 ("M314", F, "dataOffset", "| .sect => if rel.bind ≠ .loc then .error .binding else .ok (c.setWidth 32)", "| .sect => if rel.bind ≠ .loc then .error .binding else .ok (rel.value.setWidth 32)", "section reference uses the value of the symbol", C, []),
 ("M315", F, "assignSymbols", "if s.sec = idx ∧ s.name", "if s.name", "symbols of other sections", C, []),
 ("M316", F, "keepSymbol", " && !(s.typ = .notype && s.bind = .loc)", "", "local labels are kept", C, []),
 ("M317", F, "loadRelocs", "symbols[(n - 1).toNat]?", "symbols[n.toNat]?", "symbol numbers off by one", C, []),
 ("M318", F, "resolveAll", "(off + 8#64 * BitVec.ofNat 64 i.p.ins.width)", "(off + 8#64)", "wide instructions count once", C, []),
 ("M319", F, "loadFunction", "resolveAll ec sec s.value", "resolveAll ec sec 0#64", "offsets relative to the function", C, []),
 ("M320", F, "loadFunction", "(sec.data.drop s.value.toNat).take s.size.toNat", "sec.data.drop s.value.toNat", "function not limited to the size of its symbol", C, []),
 ("M321", F, "loadFunction", "{ p := { ins := i, sym := s.name } } :: r.map fun j => { p := { ins := j } }", "{ p := { ins := i, sym := s.name } } :: r.map fun j => { p := { ins := j, sym := s.name } }", "all instructions carry the name", C, []),
 ("M322", F, "relocFuncPtr", "src := Ins.PseudoFunc }) s.name", "src := Ins.PseudoFunc }) rel.name", "function pointer refers to the section", C, []),
 ("M323", F, "relocFuncPtr", "{ j with cons := BitVec.allOnes 64, src := Ins.PseudoFunc }", "{ j with cons := BitVec.allOnes 64 }", "source register of function pointers not set", C, []),
 ("M324", F, "relocMap", "src := Ins.PseudoMapFD", "src := Ins.PseudoMapValue", "maps loaded as values", C, []),
 ("M325", F, "addFunctions", "if (acc.lookup n).isSome then .error .duplicate else addFunctions", "if (acc.lookup n).isSome then addFunctions exported r acc else addFunctions", "duplicate names in other sections ignored", C, []),
 ("M326", F, "loadSyms", "if (progs.lookup s.name).isSome then .error .duplicate\n    else match", "match", "duplicate names in a section ignored", C, []),
 ("M327", F, "relocMap", "if rel.bind ≠ .glob then .error .binding\n  else if rel.typ ≠ .object", "if rel.typ ≠ .object", "static maps accepted", C, []),
 ("M328", F, "relocateInstruction", "| .maps | .btfMaps => relocMap i rel\n    | .data => relocData i target rel", "| .maps => relocMap i rel\n    | .btfMaps | .data => relocData i target rel", "BTF maps treated as data", C, []),
 ("M329", F, "resolveOne", "| some rel => relocateInstruction ec i rel\n", "| some rel => if i.p.ins.isFunctionReference then referenceRelativeJump i off sec.symbols else relocateInstruction ec i rel\n", "relocations of calls ignored", C, []),
 ("M330", F, "insertByOffset", "if e.1 = f.1 then e :: r else", "", "a replaced symbol is loaded as well", C, []),
]
