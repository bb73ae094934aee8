M = [
("M117","Model/BtfStrings","newStringTable","if l ≠ 0 then none","if false then none","unterminated string tables accepted","C24 lookup never runs past the table",[]),
("M118","Model/BtfStrings","lookupIn","else if off > 0 ∧ b[off.toNat - 1]? ≠ some 0 then none\n","","offsets into the middle of a string accepted","C24 exact lookup",[]),
("M119","Model/BtfStrings","StrTab.lookupSlow","if off < BitVec.ofNat 32 b.length then lookupIn b off","if off ≤ BitVec.ofNat 32 b.length then lookupIn b off","first string of split table looked up in the base","C24 split tables",[]),
("M120","Model/BtfStrings","StrTab.lookupCached","| some s => (some s, (off, s) :: cache)","| some s => (some s, (off + 1, s) :: cache)","cache keyed by the wrong offset","C24 cached lookups agree",[]),
("M121","Model/BtfStrings","Builder.append","b.length + (BitVec.ofNat 32 s.length + 1)","b.length + BitVec.ofNat 32 s.length","terminator not counted","C24 strings do not overlap",[]),
("M122","Model/BtfStrings","Builder.add","if 0#8 ∈ s then none\n  else match","match","strings containing NUL accepted","C24",[]),
("M123","Model/BtfHeader","mask","(1 <<< len) - 1","1 <<< len","wrong mask","C25",[]),
("M124","Model/BtfHeader","kindLen","def kindLen : Nat := 5","def kindLen : Nat := 4","kind truncated to four bits (enum64 lost)","C25/C26",[]),
("M125","Model/BtfHeader","setLinkage","{ bt with info := writeBits bt.info vlenLen vlenShift l }","{ bt with info := writeBits bt.info vlenLen kindShift l }","linkage written over the kind","C25",[]),
("M126","Model/BtfTypes","sizeofLoop","if n > 0 ∧ nelems.toNat > maxInt64 / n then .error .overflow\n      else sizeofLoop","if false then .error .overflow\n      else sizeofLoop","overflow of nested arrays unchecked","C29 Sizeof",[]),
("M127","Model/BtfTypes","Node.size?","| ptr _ => some 8","| ptr _ => some 4","pointers of four bytes","C29",[]),
("M128","Model/BtfTypes","Node.qualify?","  | restrict t => some t\n  | typeTag t _ => some t\n  | _ => none\n\n/-- Qualifiers","  | typeTag t _ => some t\n  | _ => none\n\n/-- Qualifiers","restrict not skipped","C30",[]),
("M129","Model/BtfTypes","newEssentialName","| some i => if i > 0 then name.take i else name","| some i => name.take i","flavour stripped at index 0","C30/C28 essential name",[]),
("M130","Model/BtfTraversal","visit","match visitList (visit ch fuel) (ch root) (root :: vis) with","match visitList (visit ch fuel) (ch root) vis with","type marked visited too late (never)","C27/C38 traversal",[]),
("M131","Model/BtfTraversal","childrenObj","| .array i t _ => [.obj i, .obj t]","| .array _ t _ => [.obj t]","index type not visited","C38 traversal",[]),
("M132","Model/BtfTraversal","memberRefs",".obj m.type :: tagRefs parent (i : Int) m.tags",".obj m.type :: tagRefs parent ((i : Int) + 1) m.tags","member tags attached to the next member","C26",[]),
("M133","Model/BtfMarshal","deflateMembers","(m.bitfieldSize <<< 24) ||| (m.offset &&& 0xffffff)","(m.bitfieldSize <<< 24) ||| m.offset","offset not masked (no change where offsets fit)","none: offsets of representable bitfield structs have 24 bits",[]),
("M134","Model/BtfMarshal","deflateMembers","deflateMembers bo idOf ms (bf || m.bitfieldSize != 0) sb","deflateMembers bo idOf ms (m.bitfieldSize != 0) sb","kind flag reflects only the last member","C26",[]),
("M135","Model/BtfMarshal","enumFits","decide (-2147483648 ≤ v.toInt) && decide (v.toInt ≤ 2147483647)","decide (-2147483648 ≤ v.toInt) && decide (v.toInt ≤ 4294967295)","signed values above 2^31 accepted","C26 (values read back differ)",[]),
("M136","Model/BtfMarshal","deflateEnum64Values","bo.put32 ((v.value >>> 32).setWidth 32)","bo.put32 ((v.value >>> 31).setWidth 32)","high half shifted wrongly","C26",[]),
("M137","Model/BtfMarshal","deflateType","some (raw.setKind kindArray, bo.put32 tid ++ bo.put32 iid ++ bo.put32 nelems, sb)","some (raw.setKind kindArray, bo.put32 iid ++ bo.put32 tid ++ bo.put32 nelems, sb)","element and index type swapped","C26",[]),
("M138","Model/BtfMarshal","deflateType","(((raw.setKind kindDatasec).setSizeType size).setVlen vars.length, data, sb)","((raw.setKind kindDatasec).setSizeType size, data, sb)","vlen of datasec not written","C26",[]),
("M139","Model/BtfMarshal","allocatePlaceholder","if size = 8 ∧ o.replaceEnum64 then","if size = 8 ∧ o.replaceDeclTags then","wrong option consulted","C26 options / C27",[]),
("M140","Model/BtfMarshal","Enc.id","if extGraph g t = .void then some 0 else e.ids.lookup t","e.ids.lookup t","Void has no ID","C26",[]),
("M141","Model/BtfMarshal","initEnc","lastID := BitVec.ofNat 32 b.types.length","lastID := BitVec.ofNat 32 (b.types.length + 1)","an ID is skipped after the explicit types","C27",[]),
("M142","Model/BtfMarshal","encodeBTFHeader","bo.put32 24 ++ bo.put32 0 ++ bo.put32 typeLen ++ bo.put32 typeLen","bo.put32 24 ++ bo.put32 0 ++ bo.put32 typeLen ++ bo.put32 0","string offset 0","C26",[]),
("M143","Model/BtfMarshal","deflateInt","setIntBits (setIntEncoding 0 encoding) (size.setWidth 8 * 8)","setIntBits (setIntEncoding 0 encoding) (size.setWidth 8)","bits not multiplied by 8 (members become bitfields)","C26",[]),
("M144","Model/BtfUnmarshal","parseMembers","⟨name, ty, off &&& 0xffffff, off >>> 24, []⟩","⟨name, ty, off &&& 0xffff, off >>> 24, []⟩","offset of bitfields cut to 16 bits","C26",[]),
("M145","Model/BtfUnmarshal","parseMembers","| none => ⟨name, ty, off, 0, []⟩","| none => ⟨name, ty, off &&& 0xffffff, 0, []⟩","offset cut in structs without bitfields","C26",[]),
("M146","Model/BtfUnmarshal","parseEnumValues","if signed then val.signExtend 64 else val.setWidth 64","val.setWidth 64","signed values not sign extended","C26",[]),
("M147","Model/BtfUnmarshal","parseKind","some ⟨.array 0 0 n, [idx, ty], some (.array idx ty n)⟩","some ⟨.array 0 0 n, [idx, ty], some (.array ty idx n)⟩","index and element type swapped on reading","C26",[]),
("M148","Model/BtfUnmarshal","numberTypes","(h.sizeType, id) :: tags","(id, h.sizeType) :: tags","tags indexed under their own ID","C26",[]),
("M149","Model/BtfUnmarshal","applyTag","(ms.modify idx.toNat fun m => { m with tags := m.tags ++ [v] }) ts)\n    else if idx = -1 then some (.struct nm s ms (ts ++ [v]))","(ms.modify idx.toNat fun m => { m with tags := v :: m.tags }) ts)\n    else if idx = -1 then some (.struct nm s ms (ts ++ [v]))","member tags in reverse order","C26",[]),
("M150","Model/BtfUnmarshal","Dec.inflate","| some a => (s, some a)\n      | none =>\n        match d.record id with","| some _ | none =>\n        match d.record id with","cache of types ignored (sharing lost)","C26 sharing / termination",[]),
("M151","Model/BtfUnmarshal","Dec.inflate","match applyTags (d.inflate fuel) a (s.set a n) (d.tagsOf id) with","match applyTags (d.inflate fuel) a s (d.tagsOf id) with","finished struct not stored","C26",[]),
("M152","Model/BtfUnmarshal","loadRawSpec","if h.typeOff.toNat + h.typeLen.toNat > b.length then none","if h.typeOff.toNat + h.typeLen.toNat ≥ b.length then none","off by one in bounds (needs type section at the end)","none for blobs the library writes: strings follow the types",[]),
("M153","Model/BtfUnmarshal","allOffsets","if off + 12 + n > buf.length then none","if off + 12 + n ≥ buf.length then none","last type rejected","C26",[]),
("M154","Model/BtfMarshal","TypeBuilder.add","| (true, b) => b.addOne t\n  | _ => b.addOne t","| (true, b) => (some 0, b)\n  | _ => b.addOne t","datasecs not added","C27",[]),
]
M += [
("M155","Model/BtfIndex","indexEntry","(hash.setWidth 64 <<< 32) ||| id.setWidth 64","(id.setWidth 64 <<< 32) ||| hash.setWidth 64","entries sorted by ID","C28",[]),
("M156","Model/BtfIndex","bsearch","bsearch es target k ((i + j) / 2 + 1) j","bsearch es target k ((i + j) / 2) j","binary search does not advance","C28",[]),
("M157","Model/BtfIndex","bsearch","if es[(i + j) / 2]?.getD 0 < target then","if es[(i + j) / 2]?.getD 0 ≤ target then","search for the position after equal elements (ID 0 never occurs)","none: no entry has ID 0, but the lemma is about any list",[]),
("M158","Model/BtfIndex","cutFlavour","| some i => name.take i","| some i => name.take (i + 3)","indexed with the underscores","C28",[]),
("M159","Model/BtfIndex","collect","(if newEssentialName (s.nameAt a) = name then a :: as else as)","(a :: as)","hash collisions returned","C28",[]),
("M160","Model/BtfIndex","deleteLoop","if nm a ≠ name then deleteLoop nm name k (i + 1) (types.eraseIdx i)","if nm a ≠ name then deleteLoop nm name k (i + 1) (types.eraseIdx (i + 1))","wrong element deleted","C28",[]),
("M161","Model/BtfIndex","pickCandidate","| some _ => .error .multiple","| some x => pickCandidate isWanted (some x) ts","ambiguity not reported","C28",[]),
("M162","Model/BtfIndex","indexNames","if n = [] then indexNames hash (id + 1) ns","if n = [] then indexNames hash id ns","IDs of the index drift after unnamed types","C28",[]),
("M163","Model/BtfIndex","Dec.anyTypesByName","d.typesByName hash fuel s (newEssentialName name)","d.typesByName hash fuel s name","lookup by full name","C28",[]),
("M164","Model/BtfUnmarshal","DState.delete","s.types.filter fun p => p.1 ≠ id","s.types.drop 1","wrong entry removed after a failure","C56",[]),
]
