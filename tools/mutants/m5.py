M = [
("M193","Model/CoreField","CField.nth","offset := f.offset + BitVec.ofNat 32 n * BitVec.ofNat 32 size","offset := f.offset + BitVec.ofNat 32 size","array index not multiplied in","C35",[]),
("M194","Model/CoreField","CField.adjustBits","bitfieldOffset := offset - offsetBytes * 8,","bitfieldOffset := offset % 8,","bit offset relative to the byte instead of the load","C34",[]),
("M195","Model/CoreField","CField.adjustBits","let offsetBytes := offset / 8 / BitVec.ofNat 32 align * BitVec.ofNat 32 align","let offsetBytes := offset / BitVec.ofNat 32 align * BitVec.ofNat 32 align","bits used as bytes","C34",[]),
("M196","Model/CoreField","scanMembers","| .more cs => .more ((c, off + m.offset) :: cs)","| .more cs => .more ((c, m.offset) :: cs)","offset of the enclosing anonymous struct dropped","C35",[]),
("M197","Model/CoreField","scanMembers",".found { m with offset := m.offset + off } ms.isEmpty",".found m ms.isEmpty","offset of the anonymous struct not added to the member","C35",[]),
("M198","Model/CoreField","fieldStep","else if tn ≠ 0 ∧ tn.toNat ≤ acc then .error .impossible","else if tn ≠ 0 ∧ tn.toNat < acc then .error .impossible","array bound off by one","C35",[]),
("M199","Model/CoreField","fieldStep","{ t with offset := t.offset + tm.offset / 8 }","{ t with offset := t.offset + m.offset / 8 }","local offset used for the target","C35",[]),
("M200","Model/CoreField","fieldStep","else if more then .error .other","else if false then .error .other","descending into a bitfield is not rejected","C35",[]),
("M201","Model/CoreField","fieldStep","type := tm.type, offset := st.target.offset, bitfieldSize := tm.bitfieldSize","type := tm.type, offset := st.target.offset, bitfieldSize := m.bitfieldSize","local bitfield size used for the target","C34",[]),
("M202","Model/CoreField","lshiftOf",".ok ((64 - f.bitfieldOffset - size).setWidth 64)",".ok ((64 - size).setWidth 64)","bit offset ignored on little endian","C34",[]),
("M203","Model/CoreField","lshiftOf",".ok ((64 - BitVec.ofNat 32 (width * 8) + f.bitfieldOffset).setWidth 64)",".ok (f.bitfieldOffset.setWidth 64)","load width ignored on big endian","C34",[]),
("M204","Model/CoreField","signedOf","| .enum _ _ sg' _ => .ok (b2u sg, b2u sg')","| .enum _ _ sg' _ => .ok (b2u sg', b2u sg)","swapped local and target signedness","C34",[]),
("M205","Model/CoreField","membersCompatible","if isComposite (g u) = true ∧ isComposite (g v) = true then .ok ()","if isComposite (g u) = true ∨ isComposite (g v) = true then .ok ()","composites compatible with anything","C35",[]),
("M206","Model/CoreField","findEnumValue","(fun tv => newEssentialName tv.name = newEssentialName lv.name)","(fun tv => tv.name = lv.name)","flavours of enum values compared","C35",[]),
("M207","Model/CoreField","calculateFixup","| .ok (lv, tv) => ok lv.value tv.value","| .ok (lv, tv) => ok tv.value lv.value","swapped local and target enum value","C35",[]),
("M208","Model/CoreField","calculateFixup","| .id n => ok (relo.id.setWidth 64) (n.setWidth 64)","| .id n => ok (n.setWidth 64) (n.setWidth 64)","local type ID replaced by the target's","C36",[]),
("M209","Model/CoreField","poison","if k.checksForExistence then ⟨k, 1, 0, false, false⟩ else","if k.checksForExistence then ⟨k, 0, 0, false, false⟩ else","existence check validates against 0","C35",[]),
("M210","Model/CoreField","calculateFixup","| .typeSize => typeBased (compatible g fuel relo.typ target []) afterCompat","| .typeSize => typeBased (typesMatch g fuel relo.typ target []) afterCompat","size relocations use the stricter match","C36",[]),
("M211","Model/CoreField","findLoop","| .more cs => findLoop g name k (t :: vis) (q ++ cs)","| .more cs => findLoop g name k (t :: vis) cs","siblings forgotten after an anonymous struct","C35",[]),
]
