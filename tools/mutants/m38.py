F = "Model/Targets"
C = "C101"
M = [
 ("M958", F, "table", '("386", ⟨"bpfel", "x86", ""⟩),', '("386", ⟨"bpfel", "i386", ""⟩),', "386 compiled with the wrong macro", C, []),
 ("M959", F, "table", '("ppc64le", ⟨"bpfel", "powerpc", ""⟩),', '("ppc64le", ⟨"bpfeb", "powerpc", ""⟩),', "ppc64le gets a big endian object", C, []),
 ("M960", F, "table", '  ("mips64le", ⟨"bpfel", "", ""⟩),\n', '', "an architecture missing from the table", C, []),
 ("M961", F, "findTarget", 'p.2.clang = id', 'p.2.clang = id ∧ p.2.linux = ""', "generic targets only on architectures without a specific one", C, []),
 ("M962", F, "findArch", 'p.2 = t)', 'p.2.clang = t.clang)', "specific objects on all architectures of the byte order", C, []),
 ("M963", F, "findArch", 'if t.linux = "" then none\n    else some', 'if false then none\n    else some', "architectures without a kernel name accepted as specific targets", C, []),
 ("M964", F, "findTarget", 'if id = "native" then host else id', 'if id = "native" then "amd64" else id', "native ignores the host", C, []),
 ("M965", F, "orConstraints", 'some (.or x y)', 'some (.and x y)', "all architectures at once", C, []),
 ("M966", F, "andConstraints", 'some (.and x y)', 'some (.or x y)', "tags or architectures", C, []),
 ("M967", F, "andConstraints", '  | x, none => x\n  | some x, some y => some (.and', '  | _, none => none\n  | some x, some y => some (.and', "without tags the architectures are forgotten", C, []),
 ("M968", F, "suffix", "t.linux.toList ++ '_' :: t.clang.toList else", "t.clang.toList ++ '_' :: t.linux.toList else", "the old naming scheme: file names are taken for constraints", C, []),
 ("M969", F, "suffix", "if t.linux ≠ \"\" then t.linux.toList ++ '_' :: t.clang.toList else t.clang.toList", "t.clang.toList", "all targets of a byte order write the same file", C, []),
 ("M970", F, "put", '(t, a) :: m.filter (fun p => p.1 ≠ t)', 'm ++ [(t, a)]', "a target asked for twice is converted twice", C, []),
 ("M971", F, "newTargets", 'newTargets host order ids (put m t a)', 'newTargets host order ids (put [] t a)', "only the last target is converted", C, []),
 ("M972", F, "goFile", 'fileStem o t ++ ".go".toList', "outStem o ++ '_' :: t.clang.toList ++ o.outputSuffix ++ \".go\".toList", "the Go files of specific targets overwrite each other", C, []),
 ("M973", F, "removeOld", 'if s = [] then d', 'if False then d', "without a kernel name the files of the stem itself are removed", C, []),
 ("M974", F, "convert", 'some (.go c (objFile o t))', 'some (.go c (goFile o t))', "the wrong file is embedded", C, []),
 ("M975", F, "convert", '(some (.obj t.clang t.linux))', '(some (.obj t.clang ""))', "compiled without the macro of the architecture", C, []),
 ("M976", F, "obsoleteSuffix", "t.clang.toList ++ '_' :: t.linux.toList", "t.linux.toList ++ '_' :: t.clang.toList", "removing files of the new naming scheme", C, []),
 ("M977", F, "insertDefaultFlags", '''flags.takeWhile (fun f => !hasPrefix f "-") ++ ["-O2", "-mcpu=v1"] ++ flags.dropWhile (fun f => !hasPrefix f "-")''', '''flags ++ ["-O2", "-mcpu=v1"]''', "defaults override what the user gave", C, []),
 ("M978", F, "insertDefaultFlags", '''flags.takeWhile (fun f => !hasPrefix f "-") ++ ["-O2", "-mcpu=v1"] ++ flags.dropWhile (fun f => !hasPrefix f "-")''', '''["-O2", "-mcpu=v1"] ++ flags''', "ccache is called with flags in front of the compiler", C, []),
 ("M979", F, "b2gFlags", 'let cFlags := split ++ cmd', 'let cFlags := cmd ++ split', "-cflags override the command line", C, []),
 ("M980", F, "b2gFlags", 'rest ++ cFlags', 'cFlags', "the words of -cc after the first are dropped", C, []),
 ("M981", F, "compileArgs", 'insertDefaultFlags flags ++ fixedFlags t source dest inputDir relDir', 'fixedFlags t source dest inputDir relDir ++ insertDefaultFlags flags', "fixed flags can be overridden", C, []),
 ("M982", F, "outStem", 'o.identStem.map Char.toLower', "'_' :: o.identStem", "files hidden from go build", C, []),
 ("M983", F, "removeOld", '(d.set (stem ++ ".o".toList) none).set (stem ++ ".go".toList) none', '(d.set (stem ++ ".o".toList) none)', "old Go files stay and clash", C, []),
 ("M984", F, "b2gFlags", '(hasPrefix · "-M")', '(hasPrefix · "-MD")', "flags that write dependencies elsewhere are accepted", C, []),
]
