F = "Model/ElfMaps"
C = "C106"
M = [
 ("M1072", F, "isDataSection", "name = \".bss\".toList ||", "\".bss\".toList.isPrefixOf name ||", "any section whose name begins with .bss is data", C, []),
 ("M1073", F, "isDataSection", " || \".rodata\".toList.isPrefixOf name", " || name = \".rodata\".toList", ".rodata.str and the like aren't data", C, []),
 ("M1074", F, "classify", "else if s.name = \".maps\".toList then .btfMaps", "else if \".maps\".toList.isPrefixOf s.name then .btfMaps", ".mapsfoo is taken for BTF maps, and its code is lost", C, []),
 ("M1075", F, "classify", "if s.typ = .progbits ∧ s.size ≠ 0#64 then", "if s.typ = .progbits then", "empty code sections count as programs", C, []),
 ("M1076", F, "classify", "    else if s.name = \".struct_ops\".toList then .structOps\n", "", "old struct_ops are ignored silently", C, []),
 ("M1077", F, "classify", "if \"license\".toList.isPrefixOf s.name then .license", "if s.name = \"license\".toList then .license", "only the exact name is a license", C, []),
 ("M1078", F, "scan", "| .license => scan r (some s) v", "| .license => scan r (match l with | some t => some t | none => some s) v", "the first license wins", C, []),
 ("M1079", F, "trimNul", "(b.reverse.dropWhile (· = 0#8)).reverse", "b.takeWhile (· ≠ 0#8)", "the license ends at the first NUL instead of having trailing ones trimmed", C, []),
 ("M1080", F, "loadLicense", "if s.data.length ≠ s.size.toNat then .error .license else ", "", "a short license is accepted", C, []),
 ("M1081", F, "readU32", "if big then a ++ b ++ c ++ d else d ++ c ++ b ++ a", "d ++ c ++ b ++ a", "byte order is ignored", C, []),
 ("M1082", F, "loadVersion", "| none => .error .version\n    | some", "| none => .ok 0#32\n    | some", "a short version is taken as none", C, []),
 ("M1083", F, "validChar", " || c = '.' ||", " ||", "dots are removed from names", C, []),
 ("M1084", F, "keep", "s.name ≠ [] && (s.typ = .notype || s.typ = .object)", "s.typ = .notype || s.typ = .object", "symbols without a name define maps", C, []),
 ("M1085", F, "keep", "(s.typ = .notype || s.typ = .object)", "(s.typ = .object)", "untyped symbols don't define maps", C, []),
 ("M1086", F, "assignSymbols", "if s.sec = idx ∧ keep s then", "if keep s then", "symbols of other sections define maps", C, []),
 ("M1087", F, "assignSymbols", "m.filter (fun t => t.value ≠ s.value)", "m", "both of two symbols at one place are kept", C, []),
 ("M1088", F, "sectionVars", "| none :: _, _ => .error .btf", "| none :: r, m => sectionVars r m", "functions in BTF of a section of maps are skipped", C, []),
 ("M1089", F, "readFields", "some (fl, b) => .ok (typ, ks, vs, me, fl, b)", "some (fl, b) => .ok (typ, vs, ks, me, fl, b)", "key and value size swapped", C, []),
 ("M1090", F, "symbolData", "(sec.data.drop s.value.toNat).take s.size.toNat", "sec.data.drop s.value.toNat", "the next map is read as trailing bytes", C, []),
 ("M1091", F, "extraOf", "if b.length > 0 then some b else none", "some b", "there is always something extra", C, []),
 ("M1092", F, "loadSymbol", "  if (maps.lookup s.name).isSome then .error .duplicate\n  else if s.value", "  if s.value", "a second map of the same name replaces the first", C, []),
 ("M1093", F, "loadSymbol", "s.value.toNat > 0xffffffff ∨ s.size.toNat > 0xffffffff", "False", "symbols are not limited, so that value plus size may wrap", C, []),
 ("M1094", F, "loadSymbol", "if (s.value + s.size).toNat > sec.size.toNat then", "if (s.value + s.size).toNat ≥ sec.size.toNat then", "the last map of a section is out of bounds", C, []),
 ("M1095", F, "loadSymbol", "⟨sanitizeName s.name, typ", "⟨s.name, typ", "the name isn't sanitized", C, []),
 ("M1096", F, "loadSymbol", ":: maps)", ":: [])", "only the last map is kept", C, []),
 ("M1097", F, "loadMaps", "if syms = [] then .error .noSymbols\n    else if", "if", "a section of maps without symbols is ignored", C, []),
 ("M1098", F, "loadMaps", "else if !sec.direct then .error .compressed\n    else", "else", "compressed sections are read as they are", C, []),
 ("M1099", F, "tagsOf", "| some t => t", "| some _ => []", "tags are dropped", C, []),
]
