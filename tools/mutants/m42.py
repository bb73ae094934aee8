F = "Model/PinWalk"
C = "C105"
M = [
 ("M1052", F, "St.close", "if fd ∈ s.gone then s else {", "if False then s else {", "closing an object twice closes the descriptor twice", C, []),
 ("M1053", F, "fsType", "b.zeroExtend 64", "b.signExtend 64", "the magic number is sign extended on 32 bit", C, []),
 ("M1054", F, "trimAnon", "s.drop 11", "s.drop 10", "the prefix of anonymous inodes is dropped wrongly", C, []),
 ("M1055", F, "readType", "then some .prog", "then some .link", "programs are taken for links", C, []),
 ("M1056", F, "readType", "    else if trimAnon s = \"bpf-link\".toList then some .link\n", "", "links are not known", C, []),
 ("M1057", F, "newProgramFromFD", "if !f.infoOk then (s.close .walk fd, .error (.entry p))\n  else (s, .ok ⟨p, .prog, fd, none⟩)", "if !f.infoOk then (s, .error (.entry p))\n  else (s, .ok ⟨p, .prog, fd, none⟩)", "the descriptor of a program stays open if there's no info", C, []),
 ("M1058", F, "load", "| none => ((s.openFd p).close .walk s.next, .error (.entry p))", "| none => (s.openFd p, .error (.entry p))", "a descriptor of unknown type stays open", C, []),
 ("M1059", F, "objectAfter", "if r.take then none else some o.fd", "some o.fd", "Take doesn't keep the object open", C, []),
 ("M1060", F, "objectAfter", "if r.take then none else some o.fd", "none", "objects are never closed", C, []),
 ("M1061", F, "deliver", "(pinClose (objectAfter r o) s, resOf r.flow)", "(if r.flow = .panic then s else pinClose (objectAfter r o) s, resOf r.flow)", "close isn't deferred: a panic leaves the object open", C, []),
 ("M1062", F, "resOf", "| .stop => .skipAll", "| .stop => .nil", "break doesn't end the walk", C, []),
 ("M1063", F, "visit", "| (s, .error e) => (s, .err e)", "| (s, .error _) => (s, .nil)", "objects that can't be loaded are skipped silently", C, []),
 ("M1064", F, "walkNode", "if !readable then fun s => (s, .err (.entry p))", "if !readable then fun s => (s, .nil)", "directories that can't be read are skipped silently", C, []),
 ("M1065", F, "walkNode", "runAll ((walkEntries cpus body es p).mergeSort (fun a b => decide (a.1 ≤ b.1)))", "runAll (walkEntries cpus body es p)", "entries aren't sorted", C, []),
 ("M1066", F, "walkEntries", "walkNode cpus body n (p ++ [name])", "walkNode cpus body n [name]", "the path lacks the directories", C, []),
 ("M1067", F, "runAll", "    | (s, .nil) => runAll xs s\n    | (s, r) => (s, r)", "    | (s, .nil) => runAll xs s\n    | (s, .skipAll) => (s, .nil)\n    | (s, r) => (s, r)", "SkipDir instead of SkipAll: the walk goes on in the parent directory", C, []),
 ("M1068", F, "finish", "  | (s, .skipAll) => (s.trace, .returned)", "  | (s, .skipAll) => ((s.emit (.failed .rootStat)).trace, .returned)", "yield is called again after the loop was left", C, []),
 ("M1069", F, "finish", "((s.emit (.failed e)).trace, .returned)", "(s.trace, .returned)", "the error isn't reported", C, []),
 ("M1070", F, "walkDir", "if fsType m ≠ bpfFsMagic then finish (start, .err .notBpf)\n    else", "if False then finish (start, .err .notBpf)\n    else", "any file system is walked", C, []),
 ("M1071", F, "newLinkFromFD", "(s, .ok ⟨p, .link, fd, none⟩)", "(s, .ok ⟨p, .link, fd + 1, none⟩)", "another descriptor", C, []),
]
