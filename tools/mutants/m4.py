M = [
("M165","Model/BtfDatasec","align32","(n + alignment - 1) / alignment * alignment","(n + alignment) / alignment * alignment","wrong rounding","C31",[]),
("M166","Model/BtfDatasec","isPow","n != 0 && (n &&& (n - 1)) == 0","(n &&& (n - 1)) == 0","zero is a power of two (division by zero)","C31",[]),
("M167","Model/BtfDatasec","layoutLoop","let r := layoutLoop g (off + BitVec.ofNat 32 size) vs","let r := layoutLoop g (off + BitVec.ofNat 32 al) vs","advance by alignment instead of size","C31",[]),
("M168","Model/BtfDatasec","alignof","| .array _ e _ => alignof g k e","| .array i _ _ => alignof g k i","alignment of the index type","C31",[]),
("M169","Model/BtfDatasec","layoutLoop","({ v with offset := off } :: r.1, r.2)","(v :: r.1, r.2)","offset not stored","C31",[]),
("M170","Model/BtfDatasec","fixupDatasec","(⟨setGlobal (setNode st.g t (.datasec name off vars')) vars', fx⟩, none)","(⟨setNode st.g t (.datasec name off vars'), fx⟩, none)","linkage not fixed","C31",[]),
("M171","Model/BtfDatasec","fixupDatasec","(⟨setNode st.g t (.datasec name size' r.1), fx⟩, r.2)","(⟨setNode st.g t (.datasec name size r.1), fx⟩, r.2)","ELF size not stored","C31",[]),
("M172","Model/BtfDatasec","elfOffsets","({ v with offset := o } :: r.1, r.2)","({ v with size := o } :: r.1, r.2)","offset stored as size","C31",[]),
("M173","Model/CoreCompat","compatible","if (g u).kindTag ≠ (g v).kindTag then some (.error .incompatible, vis)\n      else if (u, v) ∈ vis then some (.ok (), vis)\n      else\n        let vis := (u, v) :: vis\n        match g u, g v with\n        | .void, _ => some (.ok (), vis)\n        | .struct","if (u, v) ∈ vis then some (.ok (), vis)\n      else\n        let vis := (u, v) :: vis\n        match g u, g v with\n        | .void, _ => some (.ok (), vis)\n        | .struct","kinds not compared","C36",[]),
("M174","Model/CoreCompat","compatible","match compatible g k i j vis with","match compatible g k i i vis with","array index types not compared","C36",[]),
("M175","Model/CoreCompat","compatible","if ps.length ≠ ps'.length then some (.error .incompatible, vis)\n            else checkPairs (compatible","if ps.length > ps'.length then some (.error .incompatible, vis)\n            else checkPairs (compatible","extra target parameters accepted","C36",[]),
("M176","Model/CoreCompat","checkPairs","| some (.ok (), vis) => checkPairs f ps vis\n    | r => r","| some (_, vis) => checkPairs f ps vis\n    | r => r","parameter errors dropped","C36",[]),
("M177","Model/CoreCompat","encodingMatches","sz == sz' && ((enc == 1) == (enc' == 1))","sz == sz' && enc == enc'","bool does not match unsigned char","C57",[]),
("M178","Model/CoreCompat","enumsMatch","vs.all fun v => vs'.any fun w => namesMatch v.name w.name","vs'.all fun v => vs.any fun w => namesMatch v.name w.name","local and target swapped","C57",[]),
("M179","Model/CoreCompat","ptrFwd","| some f => (match g f with | .fwd _ k => fwdMatches g k a | _ => false)","| some f => (match g f with | .fwd _ k => fwdMatches g k b | _ => false)","forward declaration compared with itself","C57",[]),
("M180","Model/CoreCompat","typesMatch","| .array _ a n, .array _ b m => if n ≠ m then some (.error .incompatible, vis) else","| .array _ a n, .array _ b m => if n = m + 1 then some (.error .incompatible, vis) else","array lengths not compared","C57",[]),
("M181","Model/CoreCompat","typesMatch","| some (.ok (), vis) => typesMatch g k r r' vis","| some (.ok (), vis) => some (.ok (), vis)","return type not compared","C57",[]),
("M182","Model/CoreCompat","compatible","        let vis := (u, v) :: vis\n        match g u, g v with\n        | .void, _ => some (.ok (), vis)\n        | .struct","        match g u, g v with\n        | .void, _ => some (.ok (), vis)\n        | .struct","visited not recorded (does not terminate on cycles)","C36",[]),
("M183","Model/CoreCompat","checkMembers","| none => some (.error .incompatible, vis)\n    | some tm =>","| none => checkMembers f ts ms vis\n    | some tm =>","missing members accepted","C57",[]),
("M184","Model/CoreFixup","apply","if f.target.toNat > 2 ^ 15 - 1 then","if f.target.toNat > 2 ^ 16 - 1 then","offset may exceed int16","C32",[]),
("M185","Model/CoreFixup","apply","if ins.op.source ≠ 0 then .error .source\n      else if","if","register operand overwritten","C32",[]),
("M186","Model/CoreFixup","apply","else if f.target.toNat > 2 ^ 31 - 1 then","else if f.target.toNat > 2 ^ 32 - 1 then","immediate sign-extended","C32",[]),
("M187","Model/CoreFixup","poisoned","⟨⟨⟨0x18, 10, 0, 0, sentinel⟩","⟨⟨⟨0x85, 0, 0, 0, sentinel⟩","poisoned dword load becomes one slot shorter","C32",[]),
("M188","Model/CoreFixup","targetLoop","if score > bestScore then","if score ≥ bestScore then","ties silently ignored","C33",[]),
("M189","Model/CoreFixup","targetLoop","else if score < bestScore then targetLoop compute relos ts score (some fixups)","else if score < bestScore then targetLoop compute relos ts bestScore (some fixups)","score not updated","C33",[]),
("M190","Model/CoreFixup","Fixup.equal","f.loc == o.loc && f.target == o.target","f.loc == o.loc","only local values compared","C33",[]),
("M191","Model/CoreFixup","candidate","(if f.poison || f.isNonExistant then n + 1 else n)","(if f.poison then n + 1 else n)","failed existence checks not counted","C33",[]),
("M192","Model/CoreFixup","noMatch","{ kind := k, loc := 1, target := 0 }","{ kind := k, loc := 1, target := 1 }","existence reported without candidate","C33",[]),
]
