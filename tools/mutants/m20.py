F="Model/Info"
C="C83"
M=[
("M537",F,"scanLines","if f.isZero s = false then scanLines fields r (n + 1) s","if false then scanLines fields r (n + 1) s","fdinfo overrides what is known",C,[]),
("M538",F,"scanLines","if f.isZero s = false then scanLines fields r (n + 1) s","if f.isZero s = false then scanLines fields r n s","known fields not counted",C,[]),
("M539",F,"scanLines","  | none :: r, n, s => scanLines fields r n s","  | none :: _, n, s => .ok (n, s)","scanning stops at a line without colon",C,[]),
("M540",F,"mapFields",'⟨"key_size", fun s => s.2.keySize == 0, scanNum (2 ^ 32) (fun n s => (s.1, { s.2 with keySize := n }))⟩','⟨"key_size", fun s => s.2.keySize == 0, scanNum (2 ^ 32) (fun n s => (s.1, { s.2 with valueSize := n }))⟩',"key size stored in the value size",C,[]),
("M541",F,"mapFields",'⟨"frozen", fun s => !s.2.frozen','⟨"frozen", fun s => s.2.frozen',"frozen never read",C,[]),
("M542",F,"mapFields",'⟨"memlock", fun s => s.2.memlock == 0, scanNum (2 ^ 64) (fun n s => (s.1, { s.2 with memlock := n }))⟩,\n   ⟨"frozen"','⟨"memlock", fun s => s.2.memlock == 0, scanNum (2 ^ 32) (fun n s => (s.1, { s.2 with memlock := n }))⟩,\n   ⟨"frozen"',"memlock in 32 bits",C,[]),
("M543",F,"readMapInfoFromProc","    if mi.typ = 0 then\n","    if mi.typ = mi.typ then\n","fdinfo's type overrides the map's",C,[]),
("M544",F,"newMapInfo","      | .error .notSupported => .ok (mapInfoOf info)\n","","empty fdinfo is fatal",C,[]),
("M545",F,"mapInfoOf","cstr info.name, info.id","info.name, info.id","name with padding",C,[]),
("M546",F,"hexDigit","87 + n","55 + n","upper case tag",C,[]),
("M547",F,"hex","hexDigit (b / 16) :: hexDigit (b % 16)","hexDigit (b % 16) :: hexDigit (b / 16)","nibbles swapped",C,[]),
("M548",F,"progFields",'⟨"memlock", fun s => s.2.memlock == 0, scanNum (2 ^ 64) (fun n s => (s.1, { s.2 with memlock := n }))⟩]','⟨"memlock", fun s => s.2.memlock == 0, scanNum (2 ^ 64) (fun n s => (s.1, { s.2 with jitedSize := n }))⟩]',"memlock stored elsewhere",C,[]),
("M549",F,"pinfoOf","numInsns := info.xlated.count, jitedSize := info.jited.count","numInsns := info.jited.count, jitedSize := info.xlated.count","sizes swapped",C,[]),
("M550",F,"secondReq","lineRec := if info.lineInfo.count > 0 then 16 else 0","lineRec := 0","record size of line info missing",C,[]),
("M551",F,"secondReq","funcRec := if info.funcInfo.count > 0 then 8 else 0","funcRec := 8","record size sent to kernels that don't know it",C,[]),
("M552",F,"secondReq","jitedLineRec := if info.jitedLine.count > 0 then info.jitedLineRec else 0","jitedLineRec := if info.jitedLine.count > 0 then 16 else 0","wrong record size of jited lines",C,[]),
("M553",F,"recCap","size * n % 2 ^ 32 / size","n % 2 ^ 32 / size","buffer too small for the records",C,[]),
("M554",F,"xlatedReq","xlated := ask info.xlated.count info.xlated.count","xlated := ask info.xlated.count info.jited.count","instruction buffer sized after the compiled code",C,[]),
("M555",F,"makeSecondCall"," ∨ info.jitedLine.count > 0 ∨ info.ksyms.count > 0"," ∨ info.jitedLine.count > 0","no second call for a program with only ksyms",C,[]),
("M556",F,"withInsns","if i3.xlated.ptr = false then .ok { pi with restricted := true, insns := [] } else .ok { pi with insns := i3.xlated.buf }",".ok { pi with insns := i3.xlated.buf }","restriction ignored: zero instructions reported",C,[]),
("M557",F,"withInsns","{ pi with restricted := true, insns := [] }","{ pi with insns := [] }","restricted reported as unsupported",C,[]),
("M558",F,"withMaps","if info.maps.count > 0 ∨ haveMapIDs then","if info.maps.count > 0 then","no user for programs without maps",C,[]),
("M559",F,"withSecond","maps := if info.maps.count > 0 then some i2.maps.buf else pi.maps","maps := pi.maps","map IDs stay zero",C,[]),
("M560",F,"withSecond","if info.jited.count > 0 ∧ i2.jited.ptr = false then .ok pi","if false then .ok pi","zero code and addresses under kptr_restrict",C,[]),
("M561",F,"withSecond","numLineInfo := info.lineInfo.count","numLineInfo := info.funcInfo.count","wrong number of lines",C,[]),
("M562",F,"withSecond","ksyms := i2.ksyms.buf, funcLens := i2.funcLens.buf","ksyms := i2.funcLens.buf, funcLens := i2.ksyms.buf","addresses and lengths swapped",C,[]),
("M563",F,"withName","if pi.name.length = 15 ∧ pi.numFuncInfo ≠ 0","if pi.numFuncInfo ≠ 0","every name replaced by the BTF one",C,[]),
("M564",F,"newProgramInfo","      | .error .notSupported => withRest call haveMapIDs full info (pinfoOf info)\n","","missing fdinfo is fatal",C,[]),
("M565",F,"secondReq","maps := ask info.maps.count info.maps.count","maps := ask (info.maps.count + 1) info.maps.count","asks for one map too many",C,[]),
("M566",F,"PInfo.instructions","if pi.restricted then some none else","if pi.insns.length = 0 ∧ pi.restricted = false then some none else","restricted and unsupported swapped",C,[]),
("M567",F,"newProgramInfo","    if typeOk info.typ = false then .error .badType\n    else\n      match readProgramInfoFromProc file (pinfoOf info) with\n      | .ok pi => withRest call haveMapIDs full info pi","    if typeOk info.typ = false then .error .badType\n    else\n      match readProgramInfoFromProc file (pinfoOf PI.zero) with\n      | .ok pi => withRest call haveMapIDs full info pi","first call's answer dropped",C,[]),
]
