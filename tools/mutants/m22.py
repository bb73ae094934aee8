F="Model/Anchor"
C="C85"
M=[
("M593",F,"AfterLink","def AfterLink (fd : Int) : Anchor := .at_ (.link fd) 16","def AfterLink (fd : Int) : Anchor := .at_ (.link fd) 8","AfterLink attaches before",C,[]),
("M594",F,"BeforeLinkByID","def BeforeLinkByID (id : Nat) : Anchor := .at_ (.linkID id) 8","def BeforeLinkByID (id : Nat) : Anchor := .at_ (.progID id) 8","link ID taken for a program ID",C,[]),
("M595",F,"AfterProgramByID","def AfterProgramByID (id : Nat) : Anchor := .at_ (.progID id) 16","def AfterProgramByID (id : Nat) : Anchor := .at_ (.progID id) 4","AfterProgramByID replaces",C,[]),
("M596",F,"anchor","| .head => .ok (0, 8)","| .head => .ok (0, 0)","Head without flag appends",C,[]),
("M597",F,"anchor",".ok (id, p ||| (8192 ||| 32))",".ok (id, p ||| 8192)","ID flag missing for link IDs",C,[]),
("M598",F,"anchor",".ok (u32 fd, p ||| 8192)",".ok (u32 fd, p ||| 0)","link flag missing",C,[]),
("M599",F,"anchor","| .at_ (.link fd) p => if fd < 0 then .error .closedFd else","| .at_ (.link fd) p => if fd < -1 then .error .closedFd else","closed link as anchor not noticed",C,[]),
("M600",F,"rawAttach","if flags &&& 4 ≠ 0 then .ok { attr with flags := attr.flags ||| flags, replace := x }","if flags &&& 8 ≠ 0 then .ok { attr with flags := attr.flags ||| flags, replace := x }","replace and relative mixed up",C,[]),
("M601",F,"rawAttach","        else .ok { attr with flags := attr.flags ||| flags, relative := x }\n\n/-- program.go:80","        else .ok { attr with flags := flags, relative := x }\n\n/-- program.go:80","caller's flags dropped with an anchor",C,[]),
("M602",F,"anchorFlags","4 ||| 8 ||| 16 ||| 32 ||| 8192","8 ||| 16 ||| 32 ||| 8192","BPF_F_REPLACE accepted as a flag",C,[]),
("M603",F,"rawDetach","⟨u32 o.target, u32 o.prog, o.attach, 0, 0, 0, o.revision⟩","⟨u32 o.target, u32 o.prog, o.attach, 0, 0, 0, 0⟩","expected revision ignored when detaching",C,[]),
("M604",F,"rawDetach","⟨u32 o.target, u32 o.prog, o.attach, 0, 0, 0, o.revision⟩","⟨u32 o.prog, u32 o.target, o.attach, 0, 0, 0, o.revision⟩","target and program swapped",C,[]),
("M605",F,"queryPrograms","if q.count = 0 then some (.ok ([], q.revision))","if q.count = 0 then some (.ok ([], 0))","revision not reported for an empty hook",C,[]),
("M606",F,"queryPrograms","let haveLinks := q.revision ≠ 0","let haveLinks := q.revision = 0","links asked for on the wrong hooks",C,[]),
("M607",F,"queryPrograms","((r.progs.take r.count).zipIdx)","((r.progs.take q.count).zipIdx)","programs removed in between reported as ID 0",C,[]),
("M608",F,"queryPrograms","l[x.2]?.getD 0","l[x.2 + 1]?.getD 0","links off by one",C,[]),
("M609",F,"queryPrograms",", r.revision))\n",", q.revision))\n","revision of another moment",C,[]),
]
