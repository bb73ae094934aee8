F="Model/Assign"
C="C87"
M=[
("M629",F,"below","sticky || (!f.exported && !f.embedded)","(!f.exported && !f.embedded)","unexported outer field forgotten",C,[]),
("M630",F,"below","sticky || (!f.exported && !f.embedded)","sticky || !f.exported","embedded unexported structs refused",C,[]),
("M631",F,"fieldsLoop","!sticky && f.exported⟩ :: fs","f.exported⟩ :: fs","read-only flag dropped",C,[]),
("M632",F,"fieldsLoop","| .other => fieldsLoop a sticky inner (i + 1) r","| .other => some (.ok [])","return instead of continue",C,[]),
("M633",F,"fieldsLoop","| .ptr none => some (.error .nilPtr)","| .ptr none => fieldsLoop a sticky inner (i + 1) r","nil pointers skipped",C,[]),
("M634",F,"fieldsLoop","some (.ok (fs ++ gs))","some (.ok gs)","inner fields lost",C,[]),
("M635",F,"fieldsLoop","(⟨(a, i), f.tag, f.typ, ","(⟨(a, i + 1), f.tag, f.typ, ","wrong field index",C,[]),
("M636",F,"ebpfFields","fieldsLoop a sticky (ebpfFields h visited n) 0 (h a).fields","fieldsLoop a sticky (ebpfFields h ((h a).typ :: visited) n) 0 (h a).fields","types marked as visited reject two structs of one type on a path",C,[]),
("M637",F,"assignLoop","if f.tag.toList.contains ',' then ([], some .comma)\n    else if","if","comma not rejected",C,[]),
("M638",F,"assignLoop","else if done.contains (f.typ, f.tag) then ([], some .twice)","else if done.contains (f.typ, f.tag) then assignLoop get done r","second field silently skipped",C,[]),
("M639",F,"assignLoop","assignLoop get ((f.typ, f.tag) :: done) r","assignLoop get done r","assigned objects not recorded",C,[]),
("M640",F,"assignLoop","done.contains (f.typ, f.tag)","done.any (fun d => d.2 == f.tag)","a program and a map of one name refused",C,[]),
("M641",F,"assignLoop","if !f.settable then ([], some .readonly)\n        else","if false then ([], some .readonly)\n        else","unsettable fields set",C,[]),
("M642",F,"assignLoop","((f.loc, o) :: st, e)","(st, e)","value not stored",C,[]),
("M643",F,"Coll.get","| .var => (match c.vars.lookup n","| .var => (match c.maps.lookup n","variables taken from maps",C,[]),
("M644",F,"names","f.typ == t","f.typ != t","wrong type's names deleted",C,[]),
("M645",F,"del","!ns.contains x.1","ns.contains x.1","the other objects deleted",C,[]),
("M646",F,"collAssign","| (st, some e) => some (st, some e, c)","| (st, some e) => some (st, some e, ⟨del c.progs (names .prog fs), c.maps, c.vars⟩)","ownership given up on error",C,[]),
("M647",F,"collAssign","del c.maps (names .map fs)","c.maps","maps stay in the collection",C,[]),
]
