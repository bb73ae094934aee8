U="Model/Uprobe"; S="Model/Sections"; B="Model/BtfMaps"
M = [
 ("M346", U, "symbolAddress", "then value - p.vaddr + p.off", "then value - p.off + p.vaddr", "segment address and offset swapped", "C69", []),
 ("M347", U, "symbolAddress", "if !p.load || !p.exec then", "if !p.load then", "non-executable segments used too", "C69", []),
 ("M348", U, "symbolAddress", "value.toNat < (p.vaddr + p.memsz).toNat", "value.toNat ≤ (p.vaddr + p.memsz).toNat", "end of segment included", "C69", []),
 ("M349", U, "address", "if sym.size.toNat ≤ offset.toNat then", "if sym.size.toNat < offset.toNat then", "offset one past the function accepted", "C69", []),
 ("M350", U, "address", "else (.ok (sym.addr + offset), ex')", "else (.ok sym.addr, ex')", "offset dropped", "C69", []),
 ("M351", U, "lazyLoadSymbols", "if ex.once then", "if !ex.once then", "symbols never loaded", "C69", []),
 ("M352", U, "addressesLoop", "(nth 0#64 offsets i) with", "(nth 0#64 offsets 0) with", "first offset used for all symbols", "C69", []),
 ("M353", U, "contains", "decide (address.toNat < (s.addr + s.size).toNat)", "decide (address.toNat ≤ (s.addr + s.size).toNat)", "end of symbol included", "C69", []),
 ("M354", U, "load", "if !s.isFunc then load segs ss c", "if s.isFunc then load segs ss c", "data symbols loaded instead of functions", "C69", []),
 ("M355", S, "matchSectionName", "(if have' = want then some extra else none)", "(if hasPrefix name want then some extra else none)", "type+ matches any prefix", "C70", []),
 ("M356", S, "matchSectionName", "if hasPrefix name pattern then some []", "if name = pattern then some []", "plain patterns only match exactly", "C70", []),
 ("M357", S, "resultOf", "if t.progType = 27 then [] else extra", "extra", "struct_ops sections attach to the name after the slash", "C70", []),
 ("M358", S, "resultOf", "(if t.sleepable then 16 else 0)", "(if t.sleepable then 32 else 0)", "sleepable programs get the frags flag", "C70", []),
 ("M359", S, "trimOptional", "| '?' :: r => r", "| '?' :: r => '?' :: r", "optional prefix not removed", "C70", []),
 ("M360", S, "cut", "if c = '/' then ([], cs, true)", "if c = '/' then ([], c :: cs, true)", "slash kept in the attach target", "C70", []),
 ("M361", B, "step", ".ok { st with maxEntries := n }", ".ok { st with flags := n }", "max_entries stored as flags", "C71", []),
 ("M362", B, "step", "if st.key.isSome ∨ st.keySize ≠ 0#64 then", "if st.keySize ≠ 0#64 then", "key_size after a zero-size key overwrites it", "C71", []),
 ("M363", B, "step", "if !last then .error .valuesNotLast else", "if last then .error .valuesNotLast else", "check for the last member inverted", "C71", []),
 ("M364", B, "stepValues", "if st.mapType ≠ 12#32 ∧ st.mapType ≠ 13#32 then", "if st.mapType ≠ 12#32 then", "hash of maps rejected", "C71", []),
 ("M365", B, "stepValues", ".ok { st with valueSize := 4#64, contents := c }", ".ok { st with contents := c }", "value size not set for values", "C71", []),
 ("M366", B, "uintFromBTF", "| .array _ _ n => .ok (n.setWidth 64)", "| .array _ _ n => .ok (n.setWidth 64 + 1#64)", "numbers off by one", "C71", []),
 ("M367", B, "contentsLoop", "| none => contentsLoop p start n (i + 1)", "| none => contentsLoop p start n i", "empty elements not counted", "C71", []),
 ("M368", B, "resolveBTFValuesContents", "let stop := p.symValue + p.symSize", "let stop := p.symSize", "end of values without the position of the map", "C71", []),
 ("M369", B, "finish", "if st.value.isSome && !canHaveValueSize st.mapType then 0#64", "if st.value.isSome then 0#64", "value size dropped for all typed values", "C71", []),
 ("M370", B, "canHaveValueSize", "t = 27#32 || t = 33#32 || t = 4#32", "t = 27#32 || t = 4#32", "arena keeps its value size", "C71", []),
 ("M371", B, "step", "if inner then .error .innerPinned", "if !inner then .error .innerPinned", "pinning only in inner maps", "C71", []),
]
