A="Model/SpecCopy"
M=[
('M1381', 'Model/SpecCopy', 'cloneRef', '(some ⟨n, r.val⟩, n + 1)', '(some ⟨r.addr, r.val⟩, n + 1)', 'slices and pointers are shared', 'C117', []),
('M1382', 'Model/SpecCopy', 'cloneRef', '(some ⟨n, r.val⟩, n + 1)', '(some ⟨n, r.val⟩, n)', 'two objects at one address', 'C117', []),
('M1383', 'Model/SpecCopy', 'cloneRef', '| some r => (some ⟨n, r.val⟩, n + 1)', '| some _ => (none, n)', 'contents are dropped', 'C117', []),
('M1384', 'Model/SpecCopy', 'copyMap', 'let (contents, n1) := cloneRef m.contents (n + 1)', 'let (contents, n1) := (m.contents, n + 1)', 'Contents is shared', 'C117', []),
('M1385', 'Model/SpecCopy', 'copyMap', 'let (key, n2) := cloneRef m.key n1', 'let (key, n2) := (m.key, n1)', 'Key is shared', 'C117', []),
('M1386', 'Model/SpecCopy', 'copyMap', 'let (value, n3) := cloneRef m.value n2', 'let (value, n3) := cloneRef m.key n2', "the copy's Value is the Key", 'C117', []),
('M1387', 'Model/SpecCopy', 'copyMap', 'let (tags, n4) := cloneRef m.tags n3', 'let (tags, n4) := (m.tags, n3)', 'Tags is shared', 'C117', []),
('M1388', 'Model/SpecCopy', 'copyMap', '      let (extra, n6) := cloneRef m.extra n5', '      let (extra, n6) := (m.extra, n5)', 'Extra is shared', 'C117', []),
('M1389', 'Model/SpecCopy', 'copyMap', '([⟨n, m.fields, contents, key, value, tags, some n, extra⟩], n5)', '([⟨n, m.fields, contents, key, value, tags, m.inner, extra⟩], n5)', 'the inner map of the copy is the original', 'C117', []),
('M1390', 'Model/SpecCopy', 'copyMap', 'rest.head?.map (·.addr), extra⟩ :: rest', 'm.inner, extra⟩ :: rest', "the inner map isn't that of the copy", 'C117', []),
('M1391', 'Model/SpecCopy', 'copyMap', '      let (rest, n5) := copyMap ms n4', '      let (rest, n5) := (ms, n4)', "inner maps aren't copied", 'C117', []),
('M1392', 'Model/SpecCopy', 'copyMap', '    if m.inner = some m.addr then', '    if m.inner ≠ none then', 'every inner map is taken for the map itself', 'C117', []),
('M1393', 'Model/SpecCopy', 'copyMap', '      (⟨n, m.fields, contents, key, value, tags, rest', '      (⟨n, [], contents, key, value, tags, rest', 'the fields are lost', 'C117', []),
('M1394', 'Model/SpecCopy', 'copyProg', 'some ⟨n + 1, match p.insns with | none => [] | some r => r.val⟩⟩, n + 2)', 'p.insns⟩, n + 2)', 'instructions are shared', 'C117', []),
('M1395', 'Model/SpecCopy', 'copyProg', 'match p.insns with | none => [] | some r => r.val', '[]', "instructions aren't copied", 'C117', []),
('M1396', 'Model/SpecCopy', 'copyProg', '| some p => (some ⟨n, p.fields,', '| some p => (some ⟨p.addr, p.fields,', 'the program itself is given', 'C117', []),
('M1397', 'Model/SpecCopy', 'copyProg', 'p.target, some', 'none, some', 'the target is lost', 'C117', []),
('M1398', 'Model/SpecCopy', 'copyVar', 'let (value, n1) := cloneRef v.value (n + 1)', 'let (value, n1) := (v.value, n + 1)', 'values of variables are shared', 'C117', []),
('M1399', 'Model/SpecCopy', 'copyVar', 'let (typ, n2) := cloneRef v.typ n1', 'let (typ, n2) := (v.typ, n1)', 'types of variables are shared', 'C117', []),
('M1400', 'Model/SpecCopy', 'copyEntries', '    let (v, n1) := f v n\n', '    let (v, n1) := (v, (f v n).2)\n', "the specifications aren't copied", 'C117', []),
('M1401', 'Model/SpecCopy', 'copyEntries', '    ((k, v) :: l, n2)', '    (l, n2)', 'entries are dropped', 'C117', []),
('M1402', 'Model/SpecCopy', 'copyMapOfSpecs', '  | none => (none, n)\n  | some r =>\n    let (l, n1)', '  | none => (some ⟨n, []⟩, n + 1)\n  | some r =>\n    let (l, n1)', 'nil becomes an empty map', 'C117', []),
('M1403', 'Model/SpecCopy', 'copyMapOfSpecs', '(some ⟨n, l⟩, n1)', '(some ⟨r.addr, l⟩, n1)', 'the Go map is shared', 'C117', []),
('M1404', 'Model/SpecCopy', 'copy', 'let (types, n4) := cloneRef cs.types n3', 'let (types, n4) := (cs.types, n3)', 'Types is shared', 'C117', []),
('M1405', 'Model/SpecCopy', 'copy', 'types, cs.order⟩, n4)', 'types, []⟩, n4)', 'the byte order is lost', 'C117', []),
('M1406', 'Model/SpecCopy', 'copy', 'copyMapOfSpecs copyProg cs.progs n1', 'copyMapOfSpecs copyProg cs.progs n', 'addresses are used twice', 'C117', []),
('M1407', 'Model/SpecCopy', 'copy', '(⟨n, maps', '(⟨cs.addr, maps', 'the specification itself is given', 'C117', []),
]
