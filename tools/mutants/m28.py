F="Model/ProgRun"
C="C91"
M=[
("M732",F,"slicePtr","if len = 0 then none else some b","some b","empty slices aren't nil",C,[]),
("M733",F,"ctxOutOf","| some n => .ok (some n)","| some n => .ok (some (n - 1))","context buffer too short",C,[]),
("M734",F,"attrOf","dataSizeOut := BitVec.ofNat 32 (outLen o)","dataSizeOut := BitVec.ofNat 32 o.data.length","output size taken from the input",C,[]),
("M735",F,"attrOf","dataOut := slicePtr .dataOut (outLen o)","dataOut := slicePtr .dataIn (outLen o)","output goes to the input",C,[]),
("M736",F,"attrOf","  repeats := o.repeats\n","  repeats := 1\n","repetitions dropped",C,[]),
("M737",F,"attrOf","flags := o.flags\n  cpu := o.cpu","flags := o.cpu\n  cpu := o.flags","flags and CPU swapped",C,[]),
("M738",F,"attrOf","batch := o.batch","batch := 0","batch size dropped",C,[]),
("M739",F,"attrOf","ctxSizeIn := BitVec.ofNat 32 (ctxIn.getD []).length","ctxSizeIn := BitVec.ofNat 32 (ctxOut.getD 0)","size of the other context",C,[]),
("M740",F,"attrOf","ctxIn := slicePtr .ctxIn (ctxIn.getD []).length","ctxIn := none","context dropped",C,[]),
("M741",F,"shield","{ a with ctxOut := none, ctxSizeOut := 0 }, .ctxIn)","{ a with ctxOut := none, ctxSizeOut := 0 }, .ctxOut)","context of Syscall programs lost",C,[]),
("M742",F,"shield","if i.length ≠ n then .error .mismatch else","","sizes not compared",C,[]),
("M743",F,"shield","| true, some i, some n => if i.length ≠ n then .error .mismatch else .ok ({ a with ctxOut := none, ctxSizeOut := 0 }, .ctxIn)","| true, some i, some n => if i.length ≠ n then .error .mismatch else .ok (a, .ctxOut)","Syscall programs not shielded",C,[]),
("M744",F,"loop","if a.repeats.toNat ≤ 1 then some (w, resets, .done a)\n        else loop k fuel w a (resets + 1)","some (w, resets, .done a)","interrupted benchmark reported as success",C,[]),
("M745",F,"loop","else loop k fuel w a (resets + 1)","else some (w, resets, .failed (.sys e))","interruptions are errors",C,[]),
("M746",F,"loop","loop k fuel w a (resets + 1)","loop k fuel w a resets","Reset not called",C,[]),
("M747",F,"loop","else if e = ENOTSUPP then some (w, resets, .failed .notSupported)","else if e = EINVAL then some (w, resets, .failed .notSupported)","wrong errno for not supported",C,[]),
("M748",F,"loop","loop k fuel w a (resets + 1)","loop k fuel w { a with repeats := a.repeats - 1 } (resets + 1)","fewer repetitions after an interruption",C,[]),
("M749",F,"dataResult","if a.dataSizeOut.toNat > (w.mem .dataOut).length then .error .panicOverrun else ","","overrun not noticed",C,[]),
("M750",F,"dataResult",".ok (some ((w.mem .dataOut).take a.dataSizeOut.toNat))",".ok (some (w.mem .dataOut))","output not resliced",C,[]),
("M751",F,"dataResult","a.dataSizeOut.toNat > (w.mem .dataOut).length then","a.dataSizeOut.toNat ≥ (w.mem .dataOut).length then","full buffer panics",C,[]),
("M752",F,"ctxResult",".ok (some (w.mem place))",".ok (some (w.mem .ctxIn))","context before the run",C,[]),
("M753",F,"collect","| .ok c => .ok ⟨a.retval, a.duration, d, c⟩","| .ok c => .ok ⟨a.duration, a.retval, d, c⟩","results swapped",C,[]),
("M754",F,"run","if o.data.length > 2 ^ 32 - 1 then","if o.data.length > 2 ^ 32 then","4 GiB of input truncated to nothing",C,[]),
("M755",F,"testOptions","repeats := 1 }","repeats := 0 }","Test asks for no repetition",C,[]),
("M756",F,"testOptions","if input.length > 0 then some","if input.length > 1 then some","no output for one byte",C,[]),
("M757",F,"benchmark","if (BitVec.ofInt 64 repeats).toNat > 2 ^ 32 - 1 then","if (BitVec.ofInt 64 repeats).toNat > 2 ^ 32 then","2^32 repetitions truncated to 0",C,[]),
("M758",F,"benchmark","if (BitVec.ofInt 64 repeats).toNat > 2 ^ 32 - 1 then","if repeats > 2 ^ 32 - 1 then","negative repetitions accepted",C,[]),
("M759",F,"benchmark","{ data := input, repeats := BitVec.ofInt 32 repeats }","{ repeats := BitVec.ofInt 32 repeats }","input dropped",C,[]),
]
