T="Model/Tracefs"
P="Model/Probe"
M=[
 ("M434", T, "isLetter", "c ≤ 0x7a#8", "c < 0x7a#8", "z is no letter", "C77", []),
 ("M435", T, "identRest", "c = 0x2d#8 || isDigit c", "isDigit c", "dash refused", "C77", []),
 ("M436", T, "symbolRest", " || c = 0x2e#8", "", "dots in kernel symbols refused", "C77", []),
 ("M437", T, "sanitize", "else if skip then sanitize true cs", "else if skip then sanitize false cs", "runs give several underscores", "C77", []),
 ("M438", T, "hexDigit", "BitVec.ofNat 8 (0x61 + (n - 10))", "BitVec.ofNat 8 (0x61 + n)", "wrong hexadecimal digits", "C77", []),
 ("M439", T, "hex", "0x30#8 :: 0x78#8 :: hexDigits 16 n", "hexDigits 16 n", "no 0x", "C77", []),
 ("M440", T, "kprobeToken", "if a.offset ≠ 0 then a.symbol ++ [0x2b#8] ++ hex a.offset else a.symbol", "a.symbol", "offset dropped", "C77", []),
 ("M441", T, "uprobeToken", "po ++ [0x28#8] ++ hex a.refCtrOffset ++ [0x29#8] else po", "po else po", "reference counter dropped", "C77", []),
 ("M442", T, "probePrefix", "else [0x70#8]", "else [0x72#8]", "entry probes become return probes", "C77", []),
 ("M443", T, "command", "if a.maxActive ≠ 0 ∧ a.ret = false then none", "if False then none", "maxactive accepted for entry probes", "C77", []),
 ("M444", T, "randomGroup", "if 63 < group.length then none", "if 64 < group.length then none", "group one too long", "C77", []),
 ("M445", T, "randomGroup", "pre ++ [0x5f#8] ++ hexBytes random", "pre ++ [0x5f#8] ++ hexBytes (random.take 1)", "only one random byte used", "C77", []),
 ("M446", T, "removal", "[0x2d#8, 0x3a#8] ++ group ++ [0x2f#8] ++ name", "[0x2d#8, 0x3a#8] ++ group ++ [0x2f#8]", "whole group removed", "C77", []),
 ("M447", P, "finishEvent", "match removeEvent w n (spurious a) st.tick with\n      | (.error e, st) => (.error e, st)\n      | (.ok (), st) => (.error .notSupported, st)", "(.error .notSupported, st.tick)", "spurious event of old kernels not removed", "C78", []),
 ("M448", P, "tracefsProbe", "| .error e => (.error e, (closeEvent w ev st.tick).2.2)", "| .error e => (.error e, st.tick)", "event leaked if perf_event_open fails", "C78", []),
 ("M449", P, "attachProbe", "| (.error e, st) => (.error e, (closePerf w p st).2.2)", "| (.error e, st) => (.error e, st)", "perf event leaked if attaching fails", "C78", []),
 ("M450", P, "closePerf", "(r.1, ⟨p.n, some r.2.1, false⟩, r.2.2)", "(.ok (), ⟨p.n, some ev, false⟩, st.close p.n)", "trace event not removed on Close", "C78", []),
 ("M451", P, "closeLink", "let r := closePerf w l.perf (st.close n)\n        (r.1, ⟨some n, false, r.2.1⟩, r.2.2)", "(.ok (), { l with linkLive := false }, st.close n)", "perf event not closed with the link", "C78", []),
 ("M452", P, "closeLink", "if l.linkLive = false then (.error .closed, l, st)", "if False then (.error .closed, l, st)", "second Close closes again", "C78", []),
 ("M453", P, "attach", "else if cookie ≠ 0 then (.error .notSupported, st)", "else if False then (.error .notSupported, st)", "cookie ignored on old kernels", "C78", []),
 ("M454", P, "pmuAttr", "a.path a.offset", "a.path 0", "uprobe offset dropped", "C78", []),
 ("M455", P, "pmuAttr", "let config := if a.ret then 1#64 <<< bit else 0#64", "let config := 0#64", "return bit dropped", "C78", []),
 ("M456", P, "withPrefix", "f { a with symbol := w.prefix_ ++ a.symbol } st", "f { a with symbol := a.symbol ++ w.prefix_ } st", "prefix appended", "C78", []),
 ("M457", P, "tracefsProbe", "newEvent w { a with group := group } st.tick", "newEvent w { a with group := group, offset := 0 } st.tick", "offset lost on the fallback", "C78", []),
 ("M458", P, "cpuFor", "if pid ≠ -1 then -1 else 0", "if pid ≠ 0 then -1 else 0", "all processes on all CPUs", "C78", []),
 ("M459", P, "pmuProbe", "if a.maxActive ≠ 0 then (.error .notSupported, st.tick)", "if False then (.error .notSupported, st.tick)", "maxactive silently ignored by the PMU", "C78", []),
]
