L="Model/ProgLoad"
S="Model/StructOps"
M=[
 ("M391", L, "retryLogAttrs", "if attr.logSize = maxLog then none\n  else if err", "if err", "no stop at the largest buffer", "C74", []),
 ("M392", L, "retryLogAttrs", "some { attr with logSize := attr.trueSize }", "some attr", "true size ignored", "C74", []),
 ("M393", L, "retryLogAttrs", "between attr.logSize minLog (maxLog / 2#32) * 2#32", "between attr.logSize minLog (maxLog / 2#32)", "buffer not doubled", "C74", []),
 ("M394", L, "retryLogAttrs", "{ attr with logLevel := 1#32, logSize := between start minLog maxLog }", "{ attr with logSize := between start minLog maxLog }", "log level not raised", "C74", []),
 ("M395", L, "maxAttempts", "def maxAttempts : Nat := 30", "def maxAttempts : Nat := 3", "too few attempts", "C74", []),
 ("M396", L, "loop", "let buf := if attr.logLevel ≠ 0#32 then buffer attr.logSize r.log else buf\n    match r.result with\n    | .ok fd => some (.loaded fd (cString buf), [attr])", "let buf := if attr.logLevel ≠ 0#32 then buffer attr.logSize (buf ++ r.log) else buf\n    match r.result with\n    | .ok fd => some (.loaded fd (cString buf), [attr])", "log of the previous attempt kept in the buffer", "C74", []),
 ("M397", L, "between", "if v < lower then lower else v", "v", "lower bound ignored", "C74", []),
 ("M398", L, "btfLoop", "r.trueSize ≤ attr.logSize then", "attr.logSize ≤ r.trueSize then", "true size compared the wrong way", "C74", []),
 ("M399", L, "btfLoop", "attr.logSize ≠ 0#32 ∧ e ≠ .noSpace", "attr.logSize ≠ 0#32", "ENOSPC ends the loop", "C74", []),
 ("M400", L, "guess", "max (len * 2) 0x10000", "max len 0x10000", "guess does not grow", "C74", []),
 ("M401", L, "errorLog", "(splitLines l).map trimRight", "(splitLines l).map trim", "indentation of lines lost", "C74", []),
 ("M402", L, "withoutStats", "if isProcessed l then log.dropLast else log", "log.dropLast", "last line always dropped", "C74", []),
 ("M403", L, "summary", "else l.drop (n - 1)", "else l.take 1", "first line shown", "C74", []),
 ("M404", L, "cString", "b.takeWhile (· ≠ 0#8)", "b.dropLast", "terminator assumed at the end", "C74", []),
 ("M405", S, "copyBytes", ".ok (writeAt val (kOff + km.offset) (slice", ".ok (writeAt val km.offset (slice", "offset of the struct in the value ignored", "C75", []),
 ("M406", S, "copyBytes", ".ok (writeAt val (kOff + km.offset) (slice data m.offset n))", ".ok (writeAt val (kOff + m.offset) (slice data m.offset n))", "written at the user's offset", "C75", []),
 ("M407", S, "copyBytes", ".ok (writeAt val (kOff + km.offset) (slice data m.offset n))", ".ok (writeAt val (kOff + km.offset) (slice data km.offset n))", "read at the kernel's offset", "C75", []),
 ("M408", S, "validatePair", "if a ≠ b then .error .sizeMismatch else if", "if", "sizes not compared", "C75", []),
 ("M409", S, "missingMember", "if isZeroed (slice data m.offset n) then .ok () else .error .nonZero", ".ok ()", "missing members ignored", "C75", []),
 ("M410", S, "copyBytes", "if isZeroed (slice data m.offset n) then .ok val else .error .nonZero", ".ok val", "nested structs ignored", "C75", []),
 ("M411", S, "populateValue", "writeAt val (kOff + km.offset) (bo.put64 (BitVec.ofNat 64 fd))", "writeAt val (kOff + km.offset) ((bo.put64 (BitVec.ofNat 64 fd)).reverse)", "wrong byte order", "C75", []),
 ("M412", S, "populateValue", "∨ n ≠ 8 then", "then", "size of the pointer not checked", "C75", []),
 ("M413", S, "populateMembers", "populateProgs bo (key kType.name m.name)", "populateProgs bo (key m.name kType.name)", "key reversed", "C75", []),
 ("M414", S, "setAttachTo", "relocs (base + m.offset)", "relocs m.offset", "offset of the variable ignored", "C75", []),
 ("M415", S, "setAttach", "if p.name = n then", "if p.name ≠ n then", "wrong programs assigned", "C75", []),
 ("M416", S, "setAttachTo", "| none => .error .missingProgram", "| none => setAttachTo relocs base stName ms progs", "missing programs ignored", "C75", []),
 ("M417", S, "associate", "| .ok progs' => associate relocs vs progs'", "| .ok _ => associate relocs vs progs", "assignment lost", "C75", []),
]
