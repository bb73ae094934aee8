F = "Model/KernelInfo"
C = "C97"
M = [
("M884", F, "vdsoAddress", "if tag = 33 then", "if tag = 32 then", "wrong tag", C, []),
("M885", F, "vdsoAddress", "if value ≠ 0 then .ok value else .error .badAddress", ".ok value", "null address accepted", C, []),
("M886", F, "vdsoAddress", "else if tag = 0 then .error .noVDSO\n", "", "reads past the end of the vector", C, []),
("M887", F, "align4", "if n + 3 < 2 ^ 31 then n + 3 else", "if n + 3 < 2 ^ 31 then n else", "names aren't padded", C, []),
("M888", F, "upToNul", "b.takeWhile (· ≠ 0)", "b", "the NUL is part of the name", C, []),
("M889", F, "readName", "(upToNul (rest.take nameSize.toNat)) (rest.drop al.toNat)", "(upToNul (rest.take nameSize.toNat)) (rest.drop nameSize.toNat)", "padding of the name isn't skipped", C, []),
("M890", F, "scanNotes", "name = linuxName ∧ (u32 bo b 4).toInt = 4 ∧ (u32 bo b 8).toInt = 0", "name = linuxName ∧ (u32 bo b 4).toInt = 4", "type of the note ignored (build salt)", C, []),
("M891", F, "scanNotes", "name = linuxName ∧ (u32 bo b 4).toInt = 4 ∧", "(u32 bo b 4).toInt = 4 ∧", "name ignored", C, []),
("M892", F, "scanNotes", ".version (u32 bo rest 0)", ".version (u32 .little rest 0)", "big endian versions swapped", C, []),
("M893", F, "scanNotes", "else scanNotes bo fuel rest", "else .none", "a note without a description ends the section", C, []),
("M894", F, "scanSections", "| .none => scanSections bo r", "| .none => .none", "only the first section", C, []),
("M895", F, "skipDesc", "else some (rest.drop al.toNat)", "else some (rest.drop descSize.toNat)", "padding of the description isn't skipped", C, []),
("M896", F, "parseCPUs", "else .ok (if high + 1 = 2 ^ 63 then -(2 ^ 63) else high + 1)", "else .ok high", "one CPU too few", C, []),
("M897", F, "parseCPUs", "else if low ≠ 0 then .error .badFormat", "", "ranges not starting at zero accepted", C, []),
("M898", F, "parseCPUs", "if newlineOrEnd r = false then .error .badFormat\n          else", "", "further ranges ignored", C, []),
("M899", F, "parseCPUs", "if trimNewlines spec = [0x30] then .ok 1\n  else", "", "a single CPU is an error", C, []),
("M900", F, "newlineOrEnd", "else c = 0x0a", "else c = 0x0a || c = 0x2c", "comma taken for the end", C, []),
("M901", F, "newVersion", "| none => .ok (major, minor, 0)\n        | some r =>", "| none => .error .badFormat\n        | some r =>", "patch level required", C, []),
("M902", F, "newVersion", "| some (patch, _) => .ok (major, minor, patch)", "| some (patch, _) => .ok (major, patch, minor)", "swapped", C, []),
("M903", F, "scanUint16", "if n < 2 ^ 16 then", "if n < 2 ^ 32 then", "large numbers accepted", C, []),
("M904", F, "selectLoop", "native = linuxOS ∧ v.contains 0x3a = false", "native = linuxOS", "versions for other systems accepted", C, []),
("M905", F, "selectLoop", "if native ≠ [] ∧ native ≠ goos then cutPrefix (native ++ [0x3a]) v else none", "if native ≠ [] ∧ native = goos then cutPrefix (native ++ [0x3a]) v else none", "Android doesn't use the versions of Linux", C, []),
("M906", F, "detectKernelVersion", "linuxVersionCode (mem a).1 (mem a).2", "linuxVersionCode (mem 0).1 (mem 0).2", "reads at offset zero", C, []),
]
