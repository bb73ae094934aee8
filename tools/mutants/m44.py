F = "Model/KernelBtf"
C = "C107"
M = [
 ("M1100", F, "addSymbol", "if 0xff00 ≤ s.sec.toNat ∧ s.sec.toNat ≤ 0xffff then .ok m\n  else if", "if", "absolute symbols make loading fail", C, []),
 ("M1101", F, "addSymbol", "if s.value.toNat > 0xffffffff then .ok m", "if s.value.toNat > 0xffffffff then .error .symbols", "symbols above 4 GiB make loading fail", C, []),
 ("M1102", F, "addSymbol", "else if s.value.toNat > 0xffffffff then .ok m\n", "", "offsets above 4 GiB are truncated", C, []),
 ("M1103", F, "addSymbol", "| none => .error .symbolSection", "| none => .ok m", "symbols of sections that don't exist are ignored", C, []),
 ("M1104", F, "setOffset", "if a = s ∧ b = n then", "if b = n then", "symbols of all sections share a name space", C, []),
 ("M1105", F, "scanSections", "scanSections r (some s) m", "scanSections r (match b with | some t => some t | none => some s) m", "the first section with BTF is taken", C, []),
 ("M1106", F, "scanSections", "s.typ ≠ .progbits ∧ s.typ ≠ .nobits", "s.typ ≠ .progbits", ".bss has no size", C, []),
 ("M1107", F, "scanSections", "else if s.size.toNat > 0xffffffff then .error .sectionSize\n", "", "sizes are truncated", C, []),
 ("M1108", F, "loadSpecFromELF", "if big ≠ e.big then .error .byteOrder else ", "", "byte order isn't compared", C, []),
 ("M1109", F, "loadSpecFromELF", "some ⟨sizes, offsets⟩⟩", "none⟩", "sizes and offsets are dropped", C, []),
 ("M1110", F, "loadSpecFromReader", "| none => if f.readOk then loadRawSpec env f.content none else .error .read", "| none => .error .read", "raw BTF isn't read", C, []),
 ("M1111", F, "locations", "    \"/usr/lib/modules/\".toList ++ r ++ \"/kernel/vmlinux\".toList,\n", "", "a location is missing", C, []),
 ("M1112", F, "locations", "\"/vmlinux-\".toList ++ r,\n    \"/lib/modules/\"", "\"/vmlinux-\".toList,\n    \"/lib/modules/\"", "the release is substituted once only", C, []),
 ("M1113", F, "firstOf", "| .error e => .error (.opening e)", "| .error _ => firstOf env r", "locations that can't be read are skipped", C, []),
 ("M1114", F, "loadSys", "(.error e, [.mapped, .unmapped])", "(.error e, [.mapped])", "the mapping leaks if the BTF is invalid", C, []),
 ("M1115", F, "loadSys", "(.ok s, [.mapped, .owned])", "(.ok s, [.mapped])", "nobody unmaps", C, []),
 ("M1116", F, "loadSys", "if !f.mmapOk then (loadSplitSpecFromReader env f none, [])", "if !f.mmapOk then (.error .read, [])", "no fallback if mmap fails", C, []),
 ("M1117", F, "loadKernelSpec", "[.opened p, .closed p]", "[.opened p]", "the vmlinux found stays open", C, []),
 ("M1118", F, "loadKernelModuleSpec", "if hasDir module || hasExt module then", "if hasExt module then", "slashes are allowed", C, []),
 ("M1119", F, "loadKernelModuleSpec", "if hasDir module || hasExt module then", "if hasDir module then", "dots are allowed", C, []),
 ("M1120", F, "loadKernelModuleSpec", "loadSplitSpecFromReader env f (some base)", "loadSplitSpecFromReader env f none", "the module has no base", C, []),
 ("M1121", F, "listed", "entries.filter (fun s => s ≠ \"vmlinux\".toList)", "entries", "the kernel is listed as a module", C, []),
 ("M1122", F, "modules", "| .error e => (none, .error e)", "| .error e => (some [], .error e)", "an error is remembered as an empty list", C, []),
 ("M1123", F, "modules", "(some (listed l), .ok (listed l))", "(some (listed l), .ok l)", "the first caller gets an unsorted list", C, []),
]
