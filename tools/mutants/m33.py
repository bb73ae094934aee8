F = "Model/OpenReader"
C = "C96"
M = [
("M856", F, "pollerNew", "| (.error _, k) => (.error .other, release ep (release c k))", "| (.error _, k) => (.error .other, release ep k)", "the first eventfd leaks if the second can't be created", C, []),
("M857", F, "pollerNew", "| (.error _, k) => (.error .other, release ep k)", "| (.error _, k) => (.error .other, k)", "the epoll descriptor leaks if the eventfd can't be created", C, []),
("M858", F, "pollerClose", "release p.flushEvent (release p.closeEvent (release p.epoll k))", "release p.closeEvent (release p.epoll k)", "Close forgets the flush eventfd", C, []),
("M859", F, "perfBufferSize", "(perCPUBuffer + pageSize - 1) / pageSize", "perCPUBuffer / pageSize", "pages rounded down", C, []),
("M860", F, "perfBufferSize", "(nPages + 1) * pageSize", "nPages * pageSize", "no metadata page", C, []),
("M861", F, "perfBufferSize", "2 ^ (Nat.log2 (nPages - 1) + 1)", "2 ^ (Nat.log2 nPages + 1)", "powers of two are doubled", C, []),
("M862", F, "eventAttr", "else if opts.watermark = 0 then 1 else opts.watermark", "else opts.watermark", "no watermark means waiting for ever", C, []),
("M863", F, "eventAttr", "watermark := !decide (opts.wakeupEvents > 0)", "watermark := decide (opts.watermark > 0)", "default watermark counts events", C, []),
("M864", F, "eventAttr", "writeBackward := opts.overwritable", "writeBackward := false", "overwritable rings are written forward", C, []),
("M865", F, "newPerfEventRing", "if opts.watermark ≥ perCPUBuffer then", "if opts.watermark > perCPUBuffer then", "watermark equal to the buffer accepted", C, []),
("M866", F, "newPerfEventRing", "| (.error _, k) => (.error .other, release fd k)", "| (.error _, k) => (.error .other, k)", "the event leaks if mmap fails", C, []),
("M867", F, "newPerfEventRing", "(!opts.overwritable)) k with", "true) k with", "overwritable rings are mapped writable", C, []),
("M868", F, "newPerfEventRing", "let k := { k with nonblock := fd :: k.nonblock }", "let k := { k with nonblock := k.nonblock }", "event is blocking", C, []),
("M869", F, "ringLoop", "| (some e, k) => (.error e, closeRings [r] k)\n      | (none, k) =>\n        match", "| (some e, k) => (.error e, k)\n      | (none, k) =>\n        match", "ring leaks if it can't be polled", C, []),
("M870", F, "ringLoop", "| (.error .enodev, k) => ringLoop kn perCPUBuffer opts n (cpu + 1) k", "| (.error .enodev, k) => (.error .enodev, k)", "offline CPUs are an error", C, []),
("M871", F, "ringLoop", "match pollerAdd (kn.addEvent cpu) r.event k with", "match pollerAdd (kn.addEvent cpu) cpu k with", "polls the wrong descriptor", C, []),
("M872", F, "resume", "{ k with array := (i, r.event) :: k.array }", "{ k with array := (i, r.mmap) :: k.array }", "puts the wrong descriptor into the array", C, []),
("M873", F, "newPerfReader", "| (.error _, k) => (.error .other, pollerClose p (closeRings rings k))", "| (.error _, k) => (.error .other, pollerClose p k)", "rings leak if the array can't be cloned", C, []),
("M874", F, "newPerfReader", "| (.error e, k) => (.error e, pollerClose p k)\n      | (.ok rings, k)", "| (.error e, k) => (.error e, k)\n      | (.ok rings, k)", "poller leaks if a ring can't be opened", C, []),
("M875", F, "newPerfReader", "if opts.wakeupEvents > 0 ∧ opts.watermark > 0", "if opts.wakeupEvents > 1 ∧ opts.watermark > 0", "one event and a watermark accepted", C, []),
("M876", F, "perfClose", "release pr.array (closeEvents pr.rings", "(closeEvents pr.rings", "array not closed", C, []),
("M877", F, "perfClose", "(unmapAll pr.rings (pollerClose", "(unmapAll (pr.rings.drop 1) (pollerClose", "first ring stays mapped", C, []),
("M878", F, "isPow", "n != 0 && (n &&& (n - 1)) == 0", "n != 0 && (n &&& (n + 1)) == 0", "IsPow accepts 2^k-1", C, []),
("M879", F, "newRingBufEventRing", "(.ringMap kn.pageSize len false)", "(.ringMap kn.pageSize len true)", "data mapped writable", C, []),
("M880", F, "newRingBufEventRing", "let len := kn.pageSize + 2 * size", "let len := kn.pageSize + size", "data mapped once only", C, []),
("M881", F, "newRingBufEventRing", "| (.error _, k) => (.error .other, release cons k)", "| (.error _, k) => (.error .other, k)", "consumer page leaks", C, []),
("M882", F, "newRawReader", "if isRingbuf = false then", "if isRingbuf = false ∧ maxEntries = 0 then", "other maps accepted", C, []),
("M883", F, "rawClose", "release r.cons (release r.prod", "release r.cons (release r.cons", "producer pages stay mapped", C, []),
]
