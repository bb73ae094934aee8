F="Model/AttachLinks"
C="C89"
M=[
("M665",F,"attachRawLink","create k w (.link p target attach flags btf)","create k w (.link target p attach flags btf)","program and target swapped",C,[]),
("M666",F,"attachRawLink","create k w (.link p target attach flags btf)","create k w (.link p target attach 0 btf)","flags dropped",C,[]),
("M667",F,"attachXDP","if prog.typ ≠ 6 then","if prog.typ ≠ 5 then","wrong program type",C,[]),
("M668",F,"attachXDP","else if iface < 1 then","else if iface < 0 then","interface 0 allowed",C,[]),
("M669",F,"attachNetNs","if prog.typ = 22 then some 17 else if prog.typ = 30 then some 36","if prog.typ = 22 then some 36 else if prog.typ = 30 then some 17","attach types swapped",C,[]),
("M670",F,"attachFreplace","attachRawLink k w t.fd prog 0 id 0","attachRawLink k w t.fd prog 0 0 0","BTF ID of the function dropped",C,[]),
("M671",F,"freplaceResult","if e = .sys 524 then","if e = .sys 22 then","ENOTSUPP not mapped",C,[]),
("M672",F,"tracingLink","(close { w with t := w.t + 1 } fd, .error .other)","({ w with t := w.t + 1 }, .error .other)","link leaks if info fails",C,[]),
("M673",F,"tracingLink","else if k.linkType fd = 1 then","else if k.linkType fd = 2 then","Go types swapped",C,[]),
("M674",F,"attachNoLink","if cookie > 0 then (w, .error .notSupported)\n  else","if cookie > 1 then (w, .error .notSupported)\n  else","cookie 1 dropped",C,[]),
("M675",F,"attachBTFID","if e ≠ 22 ∧ e ≠ 524 then","if e ≠ 22 then","ENOTSUPP doesn't fall back",C,[]),
("M676",F,"attachBTFID","create k w (.tracing p at_ cookie)","create k w (.tracing p at_ 0)","cookie dropped",C,[]),
("M677",F,"attachTracing","if prog.typ ≠ 26 then","if prog.typ ≠ 26 ∧ prog.typ ≠ 28 then","other program types allowed",C,[]),
("M678",F,"attachLSM","attachBTFID k w prog 27 cookie","attachBTFID k w prog 27 0","LSM cookie dropped",C,[]),
("M679",F,"attachRawTracepoint","| some .notSupported => ({ w with t := w.t + 1 }, .ok (.simpleRawTracepoint fd))","| some .notSupported => ({ w with t := w.t + 1 }, .error .notSupported)","fails without links",C,[]),
("M680",F,"attachRawTracepoint","| none => ({ w with t := w.t + 1 }, .ok (.rawTracepoint fd))","| none => ({ w with t := w.t + 1 }, .ok (.simpleRawTracepoint fd))","wrong Go type",C,[]),
("M681",F,"multiErr","if e = 3 then (w, .error .notExist)\n  else\n    match k.feature w.t with\n    | some x => ({ w with t := w.t + 1 }, .error x)\n    | none => ({ w with t := w.t + 1 }, .error (.sys e))\n\n/-- link/kprobe_multi.go:74","if e = 2 then (w, .error .notExist)\n  else\n    match k.feature w.t with\n    | some x => ({ w with t := w.t + 1 }, .error x)\n    | none => ({ w with t := w.t + 1 }, .error (.sys e))\n\n/-- link/kprobe_multi.go:74","ENOENT instead of ESRCH",C,[]),
("M682",F,"kprobeMulti","else if syms ≠ 0 ∧ addrs ≠ 0 then (w, .error .invalid)","else if False then (w, .error .invalid)","symbols and addresses both allowed",C,[]),
("M683",F,"kprobeMulti","else if cks > 0 ∧ cks ≠ syms ∧ cks ≠ addrs then","else if cks > 0 ∧ cks > syms ∧ cks > addrs then","too few cookies allowed",C,[]),
("M684",F,"kprobeMulti","(if session then 56 else 42) flags","42 flags","session ignored",C,[]),
("M685",F,"kprobeMulti","(if cks ≠ 0 then some cookies else none)) with","none) with","cookies dropped",C,[]),
("M686",F,"addressLoop","((offsets.getD []).getD i 0)","((offsets.getD []).getD 0 0)","first offset used for all",C,[]),
("M687",F,"addressLoop","addressLoop addr symbols addresses offsets (i + 1) n","addressLoop addr symbols addresses offsets i n","index not advanced",C,[]),
("M688",F,"addresses","else if offsets.isSome ∧ (offsets.getD []).length ≠ n then .error .invalid\n","","offsets of any length",C,[]),
("M689",F,"uprobeMulti","else if refCtrs.length > 0 ∧ refCtrs.length ≠ as.length then (w, .error .invalid)\n","","short reference counters",C,[]),
("M690",F,"uprobeMulti","(if refCtrs.length ≠ 0 then some refCtrs else none) (if cookies.length ≠ 0 then some cookies else none) pid","(if cookies.length ≠ 0 then some cookies else none) (if refCtrs.length ≠ 0 then some refCtrs else none) pid","counters and cookies swapped",C,[]),
("M691",F,"uprobeMulti","then some cookies else none) pid)","then some cookies else none) 0)","PID dropped",C,[]),
("M692",F,"attachNetfilter","(.netfilter p 45 flags pf hook priority nfFlags)","(.netfilter p 45 nfFlags pf hook priority flags)","flags swapped",C,[]),
("M693",F,"attachIter","| some m => iterCreate k w p m","| some _ => iterCreate k w p 0","map dropped",C,[]),
("M694",F,"attachStructOps","if m.typ ≠ 26 then","if m.typ ≠ 25 then","wrong map type",C,[]),
("M695",F,"uprobeErr","else if e = 22 then (w, .error (.sys e))\n","","EINVAL handled as the others",C,[]),
]
