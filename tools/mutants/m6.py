M = [
("M212","Model/BtfExtInfo","marshalLine","(l.number <<< 10 ||| l.column)","(l.number <<< 9 ||| l.column)","wrong shift","C39",[]),
("M213","Model/BtfExtInfo","marshalLine","else if l.column > bpfColumnMax then none","else if l.column > bpfColumnMax + 1 then none","column bound off by one","C39",[]),
("M214","Model/BtfExtInfo","marshalLoop","match marshalLoop bo g (off + i.width) is b with","match marshalLoop bo g (off + 1) is b with","wide instructions counted as one","C39",[]),
("M215","Model/BtfExtInfo","newLineInfo","match look r.lineOff with\n  | none => none\n  | some text => match look r.fileOff with","match look r.fileOff with\n  | none => none\n  | some text => match look r.lineOff with","file and text swapped","C39",[]),
("M216","Model/BtfExtInfo","Source.toLine","| .comment s => ⟨[], s, 0, 0⟩","| .comment s => ⟨s, [], 0, 0⟩","comment stored as file name","C39",[]),
("M217","Model/BtfExtInfo","readLineChunks","match readLineChunks bo k (remaining - min 1024 remaining) bs with","match readLineChunks bo k (remaining - 1024 - 1) bs with","chunk arithmetic off by one","C39",[]),
("M218","Model/BtfExtInfo","attach","(takeAt raw q).1 :: attach (raw + w) ws (takeAt raw q).2","(takeAt raw q).1 :: attach (raw + 1) ws (takeAt raw q).2","raw offset advances by one","C58",[]),
("M219","Model/BtfExtInfo","takeAt","if x.1.toNat = raw then (some x.2, q) else","if x.1.toNat ≤ raw then (some x.2, q) else","stray records attached to the next instruction","C58",[]),
("M220","Model/BtfExtInfo","toInsnOff","if off % 8 ≠ 0 then none else some (off / 8)","some (off / 8)","misaligned offsets accepted","C59",[]),
("M221","Model/BtfExtInfo","readRecordSize","else if n > 256 then none","else if n > 8 then none","limit too low","C59",[]),
("M222","Model/BtfExtInfo","readSections","else if num = 0 then none","else if num = 0 then some []","empty section ends the list","C59",[]),
("M223","Model/BtfExtInfo","readExtHeader","else if flags ≠ 0 then none","else if flags = 0 then none","flags check inverted","C59",[]),
("M224","Model/BtfExtInfo","loadExtInfos","readLinePart bo look (part bs (h.hdrLen + h.lineOff) h.lineLen)","readLinePart bo look (part bs h.lineOff h.lineLen)","offset not relative to the header","C59",[]),
("M225","Model/BtfExtInfo","loadExtInfos","else match readReloPart bo look (part bs (h.hdrLen + off) len) with","else match readReloPart bo look (part bs (h.hdrLen + len) off) with","offset and length swapped","C59",[]),
("M226","Model/BtfExtInfo","parseDec","if acc * 10 + (c.toNat - 0x30) < 2 ^ 31 then","if acc * 10 + (c.toNat - 0x30) < 2 ^ 32 then","32 bit accessors accepted","C59",[]),
("M227","Model/BtfExtInfo","splitColon","if c = 0x3a then cur.reverse :: splitColon [] s else","if c = 0x3a then splitColon [] s else","part before a colon dropped","C59",[]),
("M228","Model/BtfExtInfo","sectionOf","(l.reverse.lookup name)","(l.lookup name)","first section wins","C59",[]),
("M229","Model/Pinning","sysPin","| .notExist => objPin dir pinFault f new o","| .notExist => some f","vanished pin reported as moved","C52",[]),
("M230","Model/Pinning","renameNoReplace","    else if (f new).isSome then .other\n","","rename replaces","C52",[]),
("M231","Model/Pinning","sysPin","      if cur = [] then objPin dir pinFault f new o\n      else match","      match","an unpinned object is renamed from the empty path","C52",[]),
("M232","Model/Pinning","step","| some f => (true, { s with files := f }.setHandle i { h with path := p })","| some f => (true, { s with files := f })","new path not recorded","C52",[]),
("M233","Model/Pinning","step","(true, s.setHandle j { h with path := [] })","(true, s.setHandle j h)","the clone counts as pinned","C52",[]),
("M234","Model/Pinning","sysUnpin","| .notExist => some f","| .notExist => none","unpinning a vanished pin fails","C52",[]),
("M235","Model/Pinning","step","      match sysUnpin fault h.path s.files with\n      | none => (false, s)","      match sysUnpin fault h.path s.files with\n      | none => (false, s.setHandle i { h with path := [] })","failed Unpin forgets the path","C52",[]),
("M236","Model/Pinning","renameNoReplace",".ok ((f.set cur none).set new (some o))",".ok (f.set new (some o))","old pin stays","C52",[]),
("M237","Model/MapSpec","fixup","if spec.valueSize ≠ 0 ∧ spec.valueSize ≠ 4 then (none, spec)\n    else (some { spec with valueSize := 4 }, spec)","(some { spec with valueSize := 4 }, spec)","any value size accepted for maps of maps","C51",[]),
("M238","Model/MapSpec","fixup","if spec'.maxEntries = 0 ∨ spec'.maxEntries > n then","if spec'.maxEntries = 0 then","entries not clamped","C51",[]),
("M239","Model/MapSpec","compatible","ms.flags ||| (m.flags &&& rdonlyProg)","ms.flags &&& ~~~rdonlyProg","flag removed instead of added","C51",[]),
("M240","Model/MapSpec","compatible","m.keySize == ms.keySize && ","","key size not compared","C51",[]),
("M241","Model/MapSpec","compatible","if ms.type = tDevMap ∨ ms.type = tDevMapHash then","if ms.type = tDevMap then","hash device maps forgotten","C51",[]),
("M242","Model/MapSpec","fixup","(some { spec with valueSize := 4 }, spec)","(some { spec with valueSize := 4 }, { spec with valueSize := 4 })","no copy of the spec","C51",[]),
("M243","Model/MapSpec","memorySize","align32 m.valueSize 8 * m.maxEntries","m.valueSize * m.maxEntries","values not aligned","C60",[]),
("M244","Model/MapSpec","alignInt","(n a : Nat) : Nat := (n + a - 1) / a * a","(n a : Nat) : Nat := n / a * a","rounded down","C60",[]),
("M245","Model/MapSpec","createMap","some ⟨ms.type, ms.keySize, ms.valueSize, ms.maxEntries, ms.flags⟩","some ⟨ms.type, ms.keySize, ms.valueSize, s.maxEntries, ms.flags⟩","entries of the original spec","C51",[]),
]
