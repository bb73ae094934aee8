F = "Model/ElfVirtual"
C = "C108"
M = [
 ("M1124", F, "as", "| 0, _ => none\n  | depth + 1, t =>\n    match p t with\n    | some a => some a\n    | none =>", "| 0, _ => none\n  | depth + 1, t =>\n    match p t with\n    | some a => if depth = 0 then none else some a\n    | none =>", "one typedef fewer is looked through", C, []),
 ("M1125", F, "next", "| .typedef t => some t", "| .typedef _ => none", "typedefs aren't looked through", C, []),
 ("M1126", F, "loadKconfig", "if ds.size = 0 then .error .zeroKconfig\n      else ", "", "an empty .kconfig gives a map of size 0", C, []),
 ("M1127", F, "loadKconfig", "ds.size, 1, 128, .datasec", "ds.size, 1, 0, .datasec", "the .kconfig map can be written by programs", C, []),
 ("M1128", F, "loadKconfig", "| .notFound => .ok none\n    | .failed => .error .lookup\n    | .found ds =>\n      if", "| .notFound => .error .lookup\n    | .failed => .error .lookup\n    | .found ds =>\n      if", "objects without .kconfig can't be loaded", C, []),
 ("M1129", F, "loadKsymsVars", "loadKsymsVars vs ((n, .func n) :: kfuncs, ksyms)", "loadKsymsVars vs (kfuncs, (n, .func n) :: ksyms)", "functions are taken for variables", C, []),
 ("M1130", F, "loadKsymsVars", "| _ => .error .ksymsType", "| _ => loadKsymsVars vs (kfuncs, ksyms)", "other types in .ksyms are skipped", C, []),
 ("M1131", F, "loadKsymsVars", "(n, .var n t) :: ksyms)", "ksyms ++ [(n, .var n t)])", "the first declaration of a variable wins", C, []),
 ("M1132", F, "createMap", "if v.offset + st.size > data.length then .error .exceeds\n      else ", "", "no bounds check", C, []),
 ("M1133", F, "createMap", "if v.offset + st.size > data.length", "if v.offset + st.size ≥ data.length", "the last variable of the section is rejected", C, []),
 ("M1134", F, "createMap", "else if maps.any (fun m => m.1 == name) then .error .exists\n", "", "maps of the same name are replaced", C, []),
 ("M1135", F, "createMap", "(data.drop v.offset).take", "data.take", "the bytes of the first variable are used for all", C, []),
 ("M1136", F, "createMap", "⟨name, 26, 4, st.size, 1, flags", "⟨name, 26, 4, st.size, 1, 0", "the link flag is lost", C, []),
 ("M1137", F, "createMap", "((v.offset + st.size) % 2 ^ 32 - v.offset))]⟩, st, v.offset)", "((v.offset + st.size) % 2 ^ 32))]⟩, st, v.offset)", "bytes of the next variables are appended", C, []),
 ("M1138", F, "associateVars", "setAttachTo relocs base st.name", "setAttachTo relocs 0 st.name", "relocations are looked up relative to the section", C, []),
 ("M1139", F, "associateVars", "⟨s.maps ++ [(m.name, m)], progs⟩", "⟨s.maps ++ [(m.name, m)], s.progs⟩", "assigned programs are forgotten", C, []),
 ("M1140", F, "associateVars", "⟨s.maps ++ [(m.name, m)], progs⟩", "⟨[(m.name, m)], progs⟩", "other maps are lost", C, []),
 ("M1141", F, "associateVars", "| .error _ => .error .reloc\n", "| .error _ => associateVars data flags relocs vs ⟨s.maps ++ [(m.name, m)], s.progs⟩\n", "function pointers to unknown programs are ignored", C, []),
 ("M1142", F, "associate", "| none => .error .noBTF\n", "| none => associate btf secs s\n", "without BTF the section is ignored", C, []),
 ("M1143", F, "associate", "(if sec.name = linkSec then 8192 else 0)", "(if sec.name = linkSec then 0 else 8192)", "the flag is set for the wrong sections", C, []),
 ("M1144", F, "trimPrefix", "if pre.isPrefixOf s then s.drop pre.length else s", "s", "the prefix isn't removed", C, []),
 ("M1145", F, "findInnerLoop", "if st.name = inner then some (st, off) else findInnerLoop inner ms", "some (st, off)", "the first struct is taken (bpf_struct_ops_common)", C, []),
 ("M1146", F, "findInnerLoop", "if st.name = inner then some (st, off)", "if st.name = inner then some (st, 0)", "the struct is assumed to be at offset 0", C, []),
 ("M1147", F, "findTarget", "lookup (valuePrefix ++ user.name)", "lookup user.name", "the kernel's struct itself is taken for the value type", C, []),
 ("M1148", F, "findTarget", "| .notFound => ([], .error .notSupported)", "| .notFound => ([], .error .lookup)", "a kernel without the type isn't reported as ErrNotSupported", C, []),
 ("M1149", F, "mapCreate", "if (e = 524 ∨ e = 22) ∧ a.btfFd ≠ 0 then", "if a.btfFd ≠ 0 then", "retried without BTF after any error", C, []),
 ("M1150", F, "structOpsAttr", "⟨m.type, m.keySize, t.size,", "⟨m.type, m.keySize, m.valueSize,", "the user's size is used", C, []),
 ("M1151", F, "structOpsAttr", "if h.isSome then m.flags ||| 0x8000 else m.flags", "m.flags", "the kernel isn't told about the module", C, []),
 ("M1152", F, "structOpsAttr", "kvFd, 0, 0, tid, h.getD 0⟩", "kvFd, 1, 2, tid, h.getD 0⟩", "key and value type IDs are passed", C, []),
 ("M1153", F, "createStructOps", "++ h.toList.map .closed ++ [.closed fd], .error e)\n        | (evs', .ok mfd)", "++ [.closed fd], .error e)\n        | (evs', .ok mfd)", "the module's handle leaks if the map isn't created", C, []),
 ("M1154", F, "createStructOps", "| (evs, .error e) => (.opened fd :: evs ++ [.closed fd], .error e)", "| (evs, .error e) => (.opened fd :: evs, .error e)", "the BTF handle leaks if the kernel has no such type", C, []),
 ("M1155", F, "createStructOps", ".ok (mfd, t.size))", ".ok (mfd, m.valueSize))", "the map believes its values to have the user's size", C, []),
]
