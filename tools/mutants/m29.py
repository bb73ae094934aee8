F = "Model/MapOps"
C = "C92: a map behaves as the dictionary it is"
M = [
 ("M760", F, "newMapFromParts", "align8 valueSize * cpus⟩", "valueSize * cpus⟩", "the size of a per-CPU value isn't rounded up", C, []),
 ("M761", F, "canStoreProgram", "t == 3 || t == 0x10000003", "t == 3", "program arrays of Windows are forgotten", C, []),
 ("M762", F, "sysMarshal", "  | .bytes b => if b.length = size then some b else none", "  | .bytes b => some b", "the size of byte strings isn't checked", C, []),
 ("M763", F, "marshalKey", "  | .nil => if m.keySize = 0 then .ok none else .error .nilKey", "  | .nil => .ok none", "a nil key is passed to the kernel for every map", C, []),
 ("M764", F, "marshalKey", "  | a => match marshalMapSyscallInput a m.keySize with\n    | none => .error .badKey", "  | a => match marshalMapSyscallInput a m.valueSize with\n    | none => .error .badKey", "keys are encoded with the size of values", C, []),
 ("M765", F, "marshalFd", "if length ≠ 4 then none else", "if length < 4 then none else", "descriptors are stored in maps with larger values", C, []),
 ("M766", F, "marshalValue", "  | .prog fd =>\n    if !canStoreProgram m.typ then", "  | .prog fd =>\n    if !canStoreMap m.typ then", "programs can be stored in maps of maps", C, []),
 ("M767", F, "wrapMapError", "else if e = .EEXIST then .keyExist", "else if e = .EEXIST then .keyNotExist", "EEXIST is reported as ErrKeyNotExist", C, []),
 ("M768", F, "direct", "  | .val t mem => (unsafeBackingMemory t true mem).filter (·.length = size)", "  | .val t mem => unsafeBackingMemory t true mem", "the kernel writes into values of another size", C, []),
 ("M769", F, "direct", "  | .pbytes b => some b |>.filter (·.length = size)", "  | .pbytes b => some b", "the kernel writes into slices of another size", C, []),
 ("M770", F, "unmarshalValue", "      | .ok w => .ret (closeFd w cur) (.pmap (some newFd)) none", "      | .ok w => .ret w (.pmap (some newFd)) none", "the map held before isn't closed", C, []),
 ("M771", F, "unmarshalValue", "  | .pprog cur =>\n    if !canStoreProgram m.typ then .ret w dst (some .readRef)\n    else match fromID bo gone newFd w mem with", "  | .pprog cur =>\n    if !canStoreProgram m.typ then .ret w dst (some .readRef)\n    else match fromID bo gone newFd (closeFd w cur) mem with", "the program held before is closed although the lookup may fail", C, []),
 ("M772", F, "lookup", "    | .errno e => if e = .ENOENT then .ok (.error .keyNotExist) else .ok (.error (wrapMapError e))", "    | .errno e => .ok (.error (.sys e))", "errors of lookups aren't translated", C, []),
 ("M773", F, "outBuffer", "  | none => newBuffer (zeros size)", "  | none => newBuffer (zeros (size - 1))", "the buffer for values is too small", C, []),
 ("M774", F, "ensurePerCPUSlice", "some (.pslice t cpus (zeros (cpus * sizeof t)), t, cpus)", "some (.pslice t cpus (zeros (cpus * sizeof t)), t, cpus - 1)", "one CPU is missing in the new slice", C, []),
 ("M775", F, "lookupPerCPU", "    match lookup m k refuse w.dict key (newBuffer (zeros m.fullValueSize)) with\n    | .oob => .oob\n    | .errno e => .ret w dst (some (.sys e))\n    | .ok (.error e) => .ret w dst (some e)\n    | .ok (.ok mem) => unmarshalPerCPU", "    match lookup m k refuse w.dict key (newBuffer (zeros m.valueSize)) with\n    | .oob => .oob\n    | .errno e => .ret w dst (some (.sys e))\n    | .ok (.error e) => .ret w dst (some e)\n    | .ok (.ok mem) => unmarshalPerCPU", "the buffer for per-CPU values has the size of one value", C, []),
 ("M776", F, "lookupWithFlags", "    match lookup m k refuse w.dict key (outBuffer dst m.fullValueSize) with\n    | .oob => .oob\n    | .errno e => .ret w dst (some (.sys e))\n    | .ok (.error e) => .ret w dst (some e)", "    match lookup m k refuse w.dict key (outBuffer dst m.fullValueSize) with\n    | .oob => .oob\n    | .errno e => .ret w dst (some (.sys e))\n    | .ok (.error e) => .ret w dst (if e = .keyNotExist then none else some e)", "a missing key is no error", C, []),
 ("M777", F, "lookupBytes", "  | .ok (.error e) => if e = .keyNotExist then .ok (none, none) else .ok (some (zeros m.fullValueSize), some e)", "  | .ok (.error e) => .ok (none, if e = .keyNotExist then some e else none)", "LookupBytes hides other errors", C, []),
 ("M778", F, "UpdateExist", "1 <<< (2 - 1)", "1 <<< 2", "wrong flag", C, []),
 ("M779", F, "mapUpdate", "    match marshalPerCPU cpus value m.valueSize with", "    match marshalPerCPU cpus value m.fullValueSize with", "elements of per-CPU values are encoded with the full size", C, []),
 ("M780", F, "put", "mapUpdate m k bo cpus refuse w key value UpdateAny", "mapUpdate m k bo cpus refuse w key value UpdateNoExist", "Put refuses to replace", C, []),
 ("M781", F, "guesses", "List.replicate m.keySize 0x55#8", "List.replicate m.keySize 0xff#8", "a guess is tried twice", C, []),
 ("M782", F, "guessLoop", "    | .ok (.error .keyNotExist) => some (g, i + 1)", "    | .ok (.error _) => some (g, i + 1)", "a key that exists is taken as missing", C, []),
 ("M783", F, "nextKeyPtr", "  | .nil => .ok none\n  | key => marshalKey m key", "  | key => marshalKey m key", "no key isn't accepted as the start", C, []),
 ("M784", F, "nextKey", "      if isNil key = true ∧ e = .EFAULT then", "      if isNil key = true ∧ e = .EINVAL then", "the error of old kernels isn't recognised", C, []),
 ("M785", F, "mapNextKey", "  match nextKey m k refuse d r key (outBuffer dst m.keySize) with", "  match nextKey m k refuse d r key (outBuffer dst m.valueSize) with", "the buffer for the next key has the size of values", C, []),
 ("M786", F, "delete", "    match kDelete k refuse w p with\n    | .oob => .oob\n    | .errno e => .ret w (some (wrapMapError e))", "    match kDelete k refuse w p with\n    | .oob => .oob\n    | .errno e => .ret w (if e = .ENOENT then none else some (wrapMapError e))", "deleting a missing key is no error", C, []),
 ("M787", F, "fromID", "| none => .ok { w with fds := (newFd, (bo.get32 a b c d).toNat) :: w.fds }", "| none => .ok { w with fds := (newFd, (bo.get32 d c b a).toNat) :: w.fds }", "the id is read in the wrong byte order", C, []),
 ("M788", F, "marshalPerCPU", "(mem.drop (i * sizeof t)).take (sizeof t)", "(mem.drop (i * binSize t)).take (sizeof t)", "elements with padding are taken from the wrong place", C, []),
 ("M789", F, "lookupAndDeleteWithFlags", "  if MapCreate.hasPerCPU m.typ then lookupAndDeletePerCPU m k cpus refuse w key dst\n", "  if MapCreate.hasPerCPU m.typ then lookupPerCPU m k cpus refuse w key dst\n", "per-CPU elements aren't deleted", C, []),
]
