F = "Model/LinkInfo"
C = "C99"
M = [
 ("M916", F, "queryInfoWithString", "let stringData := List.replicate (r1.num lo) 0", "let stringData := List.replicate (r1.num lo - 1) 0", "the buffer is one byte short for the NUL", C, []),
 ("M917", F, "queryInfoWithString", ".ok b => .ok (byteSliceToString b, r2.num)", ".ok b => .ok (b, r2.num)", "the NUL and padding are kept in the name", C, []),
 ("M918", F, "perfExtra", ".ok (.kprobe (num 40) (num 48) name (num 36))", ".ok (.kprobe (num 48) (num 40) name (num 36))", "address and missed swapped", C, []),
 ("M919", F, "perfExtra", ".ok (.uprobe name (num 36) (num 40) (num 48))", ".ok (.uprobe name (num 36) (num 48) (num 40))", "cookie and reference counter swapped", C, []),
 ("M920", F, "perfExtra", "if type = 1 ∨ type = 2 then", "if type = 1 then", "uretprobes forgotten", C, []),
 ("M921", F, "kprobeMultiInfo", "num := fun o => if o = 24 then addrs.length else 0 }", "num := fun _ => 0 }", "the count is not passed to the second query", C, []),
 ("M922", F, "kprobeMultiInfo", "else if o = 40 then slicePointer 1 cookies else none,\n        num := fun o => if o = 24", "else none,\n        num := fun o => if o = 24", "cookies are not asked for", C, []),
 ("M924", F, "offsets", "fun x => ⟨x.1, x.2.1, x.2.2⟩", "fun x => ⟨x.1, x.2.2, x.2.1⟩", "cookie and reference count swapped", C, []),
 ("M925", F, "pid", "if n > 0 then some n else none", "if n > 1 then some n else none", "PID 1 is not reported", C, []),
 ("M926", F, "uprobeMultiInfo", "if o = 24 then slicePointer 1 addrs\n          else if o = 32 then slicePointer 2 refs", "if o = 32 then slicePointer 1 addrs\n          else if o = 24 then slicePointer 2 refs", "pointers of offsets and reference counters swapped (same size)", C, []),
 ("M927", F, "uprobeMultiInfo", "let path := List.replicate (r1.num 48) 0", "let path := List.replicate 4096 0", "a fixed path buffer", C, []),
 ("M928", F, "cgroupExtra", ".cgroup (num 16) (num 24)", ".cgroup (num 16) (num 20)", "attach type read from the upper half of the cgroup ID", C, []),
 ("M929", F, "infoMethod", "  | 11 => simpleInfo K tcxExtra\n", "", "TCX links are not wrapped", C, []),
 ("M930", F, "infoMethod", "  | 5 => simpleInfo K netnsExtra\n  | 6 => simpleInfo K xdpExtra", "  | 6 => simpleInfo K netnsExtra\n  | 5 => simpleInfo K xdpExtra", "netns and XDP links mixed up", C, []),
 ("M931", F, "common", "⟨num 0, num 4, num 8, extra⟩", "⟨num 0, num 8, num 4, extra⟩", "link ID and program ID swapped", C, []),
 ("M932", F, "perfInfo", "perfExtra (fun i => K (i + 1)) (r.num 16)", "perfExtra (fun i => K (i + 1)) (r.num 0)", "the link type is taken for the perf event type", C, []),
 ("M933", F, "slicePointer", "if buf.length = 0 then none else some ⟨id, buf.length⟩", "some ⟨id, buf.length⟩", "an empty slice is not a nil pointer", C, []),
 ("M934", F, "kprobeMultiInfo", "let cookies := List.replicate (r1.num 24) 0\n    let q", "let cookies := List.replicate (r1.num 24 - 1) 0\n    let q", "one cookie too few: the kernel overwrites memory", C, []),
 ("M935", F, "netfilterExtra", ".netfilter (num 16) (num 20) (num 24) (num 28)", ".netfilter (num 20) (num 16) (num 24) (num 28)", "protocol family and hook swapped", C, []),
]
