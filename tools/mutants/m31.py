F = "Model/Features"
C = "C94"
M = [
 ("M806", F, "createMap", "if e = EINVAL ∨ e = E2BIG then (some .notSupported, fds) else (some (.errno e), fds)\n\n/-- features/map.go:65", "if e = EINVAL then (some .notSupported, fds) else (some (.errno e), fds)\n\n/-- features/map.go:65", "E2BIG isn't taken for an old kernel", C, []),
 ("M807", F, "createMap", "    (none, close n (n :: fds))\n  | .error e => if e = EINVAL ∨ e = E2BIG then (some .notSupported, fds) else (some (.errno e), fds)\n\n/-- features/map.go:65", "    (none, n :: fds)\n  | .error e => if e = EINVAL ∨ e = E2BIG then (some .notSupported, fds) else (some (.errno e), fds)\n\n/-- features/map.go:65", "the map's descriptor isn't closed", C, []),
 ("M808", F, "probeStorageMap", "btfKeyTypeId := 1, btfValueTypeId := 1, btfFd", "btfValueTypeId := 1, btfFd", "no type ID for the key", C, []),
 ("M809", F, "probeStorageMap", "mapFlags := 1, btfKey", "btfKey", "BPF_F_NO_PREALLOC forgotten for local storage", C, []),
 ("M810", F, "probeNestedMap", "accept EBADF (probeMap s { mapType := mt, innerMapFd := 0xffffffff } fds)", "probeMap s { mapType := mt, innerMapFd := 0xffffffff } fds", "EBADF isn't taken for support of nested maps", C, []),
 ("M811", F, "probeMap", "createMap s { a with maxEntries := 1 } fds", "createMap s { a with maxEntries := 0 } fds", "maps without entries", C, []),
 ("M812", F, "mapTypeProbe", "{ mapType := 7, valueSize := 8 }", "{ mapType := 7 }", "stack traces with values of 4 bytes", C, []),
 ("M813", F, "mapTypeProbe", "keySize := 0, valueSize := 0, maxEntries := p.page })\n  | 28", "keySize := 0, valueSize := 0, maxEntries := 1 })\n  | 28", "a ring buffer of one byte", C, []),
 ("M814", F, "mapTypeProbe", "mapExtra := 0, mapFlags := 1024 }", "mapExtra := 0 }", "arena without BPF_F_MMAPABLE", C, []),
 ("M815", F, "mapTypeProbe", "accept ENOTSUPP (probeMap", "accept EBADF (probeMap", "struct_ops maps: the wrong errno", C, []),
 ("M816", F, "probeMapFlag", "if e = EINVAL then (some .notSupported, fds) else (some (.errno e), fds)\n\n/-- features/map.go:285", "if e = E2BIG then (some .notSupported, fds) else (some (.errno e), fds)\n\n/-- features/map.go:285", "unknown flags are inconclusive", C, []),
 ("M817", F, "haveMapFlag", "  | 256 => probeMapFlag s { mapFlags := 256 } fds", "  | 256 => probeMapFlag s { mapFlags := 128 } fds", "BPF_F_WRONLY_PROG probed with BPF_F_RDONLY_PROG", C, []),
 ("M818", F, "haveMapFlag", "{ mapType := 1, mapFlags := 1 }", "{ mapFlags := 1 }", "BPF_F_NO_PREALLOC tried on an array", C, []),
 ("M819", F, "judgeHelper", "if e = EACCES then none", "if e = EACCES ∨ e = 1 then none", "EPERM taken for support", C, []),
 ("M820", F, "judgeHelper", "[\"invalid func\".toList, tag]", "[\"invalid func\".toList, tag, \"unknown\".toList]", "only helpers without a name", C, []),
 ("M821", F, "judgeHelper", " || logContainsAll log [\"unknown func\".toList] then some .notSupported", " then some .notSupported", "the message of older kernels is forgotten", C, []),
 ("M822", F, "judgeHelper", "    else some (.errno e)\n  else some", "    else some .notSupported\n  else some", "any EINVAL means not supported", C, []),
 ("M823", F, "logContainsAll", "log.drop (log.length - 5)", "log.drop (log.length - 4)", "only four lines are looked at", C, []),
 ("M824", F, "helperProg", "  | 25 => { r with attachType := 21 }", "", "no attach type for CGroupSockopt", C, []),
 ("M825", F, "haveProgramHelper", "      | .other e => (some (.errno e), t.2)", "      | .other _ => (none, t.2)", "errors other than the verifier's are dropped", C, []),
 ("M826", F, "progTypeProbe", "some (probeProgram s { progType := 31, sleepable := true })", "some (probeProgram s { progType := 31 })", "Syscall without BPF_F_SLEEPABLE", C, []),
 ("M827", F, "progTypeProbe", "{ progType := 27, gpl := true }", "{ progType := 27 }", "struct_ops without GPL", C, []),
 ("M828", F, "haveUprobeMulti", "if e = EBADF then (none, fds) else if e = EINVAL then (some .notSupported, fds)", "if e = EINVAL then (none, fds) else if e = EBADF then (some .notSupported, fds)", "the errnos are swapped", C, []),
 ("M829", F, "haveKprobeMulti", "else if e = EOPNOTSUPP then (some .notSupported, fds) else", "else", "no fprobe is inconclusive", C, []),
 ("M830", F, "withProgram", "    (o.1, close n o.2)", "    (o.1, o.2)", "the program isn't closed", C, []),
 ("M831", F, "haveKprobeSession", "haveKprobeMulti s 56 fds", "haveKprobeMulti s 42 fds", "session probed with the attach type of kprobe_multi", C, []),
]
