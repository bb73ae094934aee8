F = "Model/ProgHandles"
C = "C109"
def m(i, d, old, new, bug): return (i, F, d, old, new, bug, C, [])
M = [
 m("M1156","dup","    | some k => if ok then ((openFd pick k s).1, (openFd pick k s).2) else (none, s)","    | some k => if ok then (some n, s) else (none, s)","Dup returns the same descriptor"),
 m("M1157","handleFromID","    if c.hinfo then (some fd, s) else (none, closeFd fd s)","    if c.hinfo then (some fd, s) else (none, s)","NewHandleFromID leaks the descriptor if the info can't be read"),
 m("M1158","Program.handle","    | some bid => if bid = 0 then (none, s) else handleFromID pick c bid s","    | some bid => handleFromID pick c bid s","Handle of a program without BTF isn't refused"),
 m("M1159","Program.handle","  | some h => dup pick c.dup1 h s\n  | none =>\n    match progInfo","  | some h => (h, s)\n  | none =>\n    match progInfo","Handle returns the program's own handle instead of a clone"),
 m("M1160","Program.setHandle","      if bid = 0 ∨ bid ≠ id then (p, false, s)","      if bid = 0 then (p, false, s)","SetHandle accepts other BTF"),
 m("M1161","Program.setHandle","      if bid = 0 ∨ bid ≠ id then (p, false, s)","      if bid ≠ id then (p, false, s)","SetHandle accepts a program without BTF (ID 0)"),
 m("M1162","Program.setHandle","        | (some d, s) => ({ p with btf := some (some d) }, true, s)","        | (some d, s) => ({ p with btf := some h }, true, s)","SetHandle keeps the caller's handle"),
 m("M1163","Program.setHandle","      else if p.btf.isSome then (p, true, s)\n","","SetHandle overwrites the handle the program already has"),
 m("M1164","Program.setHandle","        | (none, s) => (p, false, s)\n        | (some d","        | (none, s) => (p, true, s)\n        | (some d","SetHandle ignores that cloning failed"),
 m("M1165","cloneBtf","    match dup pick c.dup1 h s with\n    | (none, s) => (none, s)\n    | (some d, s) => (some (some (some d)), s)","    (some (some h), s)","Clone shares the handle"),
 m("M1166","cloneBtf","    | (none, s) => (none, s)\n    | (some d, s) => (some (some (some d)), s)","    | (none, s) => (some none, s)\n    | (some d, s) => (some (some (some d)), s)","Clone goes on without BTF if the handle can't be cloned"),
 m("M1167","Program.clone","    | (none, s) => (none, closeBtf b s)","    | (none, s) => (none, s)","Clone leaks the handle if the descriptor can't be duplicated"),
 m("M1168","Program.clone","    | (some d, s) => (some ⟨some d, p.pid, b⟩, s)","    | (some d, s) => (some ⟨some d, p.pid, p.btf⟩, s)","the clone has the original's handle"),
 m("M1169","Program.close","p.fd.close (closeBtf p.btf s))","p.fd.close s)","Close doesn't close the handle"),
 m("M1170","Program.close","(⟨none, p.pid, closedBtf p.btf⟩, p.fd.close (closeBtf p.btf s))","(⟨none, p.pid, closedBtf p.btf⟩, closeBtf p.btf s)","Close doesn't close the program"),
 m("M1171","Program.close","  else (⟨none, p.pid, closedBtf p.btf⟩","  else (⟨none, p.pid, p.btf⟩","the handle isn't marked as closed: closed twice"),
 m("M1172","Program.close","  else (⟨none, p.pid, closedBtf p.btf⟩","  else (⟨p.fd, p.pid, closedBtf p.btf⟩","the descriptor isn't marked as closed"),
 m("M1173","newProgramFromFD","else (none, closeFd fd s)\n\n/-- prog.go:629","else (none, s)\n\n/-- prog.go:629","newProgramFromFD leaks the descriptor on an error"),
 m("M1174","findTargetInProgram","    | (some h, s) => (spec && type, closeFd h s)","    | (some h, s) => (spec && type, s)","the handle of the target leaks"),
 m("M1175","findTargetInProgram","    | (some h, s) => (spec && type, closeFd h s)","    | (some h, s) => (type, closeFd h s)","an error of parsing the target's BTF is ignored"),
 m("M1176","findTargetInProgram","    | (none, s) => (false, s)\n    | (some h, s) => (spec","    | (none, s) => (true, s)\n    | (some h, s) => (spec","no BTF in the target: ignored"),
 m("M1177","attachTarget","    (some (some fd, [(fd, .btf bid)]), s)","    (some (some fd, []), s)","the module isn't passed to the kernel"),
 m("M1178","attachTarget","    (some (some fd, [(fd, .btf bid)]), s)","    (some (none, [(fd, .btf bid)]), s)","the module leaks"),
 m("M1179","attachTarget","    | (true, s) => (some (none, t.fd.toList.map fun n => (n, .prog t.pid)), s)","    | (true, s) => (some (none, []), s)","the target program isn't passed"),
 m("M1180","attachTarget","  | .kernel none => (none, s)","  | .kernel none => (some (none, []), s)","a missing target is ignored"),
 m("M1181","attempts","  | n + 1, s => attempts used n (attempt used s)","  | n + 1, s => attempts [] n (attempt used s)","a retry doesn't pass the descriptors"),
 m("M1182","load","    (some ⟨some fd, pid, btf.map some⟩, s)","    (some ⟨some fd, pid, none⟩, s)","the program doesn't get the handle"),
 m("M1183","load","  if e.accepted then\n","  if true then\n","rejection by the verifier is ignored"),
 m("M1184","finish","    | (p, s) => (p, closeAll module_.toList s)","    | (p, s) => (p, s)","the module isn't closed after loading"),
 m("M1185","finish","    match load pick pid btf (used ++ us) e s with\n    | (p, s) => (p, closeAll module_.toList s)","    match load pick pid btf (used ++ us) e (closeAll module_.toList s) with\n    | (p, s) => (p, s)","the module is closed before loading"),
 m("M1186","withKfuncs","      else (none, closeAll fds s)\n\n/-- prog.go:383","      else (none, s)\n\n/-- prog.go:383","modules of kernel functions leak if encoding fails"),
 m("M1187","withKfuncs","        match finish progBtf pick pid btf (used ++ fds.zip (bids.map .btf)) e s with\n        | (p, s) => (p, closeAll fds s)","        match finish progBtf pick pid btf (used ++ fds.zip (bids.map .btf)) e (closeAll fds s) with\n        | (p, s) => (p, s)","modules of kernel functions are closed before loading"),
 m("M1188","withKsyms","      else (none, closeAll fds s)\n\n/-- prog.go:377","      else (none, s)\n\n/-- prog.go:377","modules of kernel variables leak if validation fails"),
 m("M1189","withKsyms","        match withKfuncs progBtf pick pid btf (used ++ fds.zip (bids.map .btf)) e s with\n        | (p, s) => (p, closeAll fds s)","        match withKfuncs progBtf pick pid btf used e (closeAll fds s) with\n        | (p, s) => (p, s)","modules of kernel variables are closed before loading and not passed"),
 m("M1190","withKconfig","      | (p, s) => (p, closeAll fds s)\n\n/-- prog.go:370","      | (p, s) => (p, s)\n\n/-- prog.go:370","the kconfig map leaks"),
 m("M1191","withKconfig","  match e.kconfig with\n  | none => (none, s)\n","  match e.kconfig.or (some none) with\n  | none => (none, s)\n","an unresolved kconfig is ignored"),
 m("M1192","keepBtf","  | (none, s) => (none, closeAll btf.toList s)","  | (none, s) => (none, s)","the BTF leaks if loading fails"),
 m("M1193","keepBtf","  | (some p, s) => if p.btf = btf.map some then (some p, s) else (some p, closeAll btf.toList s)","  | (some p, s) => (some p, closeAll btf.toList s)","the BTF is closed although the program has it"),
 m("M1194","loadBtf","  else (none, s)\n\n/-- prog.go:480","  else (some none, s)\n\n/-- prog.go:480","BTF the kernel rejects is dropped silently"),
 m("M1195","newProgram","(btf.toList.map fun fd => (fd, .btf (progBtf pid)))","[]","the BTF isn't passed to the kernel"),
]
