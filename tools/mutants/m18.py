F="Model/Batch"
C="C81"
M=[
("M500",F,"cursorLen","max m.keySize 4","m.keySize","cursor buffer of key size only",C,[]),
("M501",F,"cursorFits","  | some _ => c.m = some m.id","  | some _ => true","cursor reused across maps",C,[]),
("M502",F,"cursorAfter","| some t => overlay t (cursorBuf m c)","| some _ => cursorBuf m c","cursor not updated",C,[]),
("M503",F,"cursorAfter","⟨some m.id, some","⟨c.m, some","map of the cursor not recorded",C,[]),
("M504",F,"request","count * m.keySize, count * m.fullValueSize","count * m.keySize, m.fullValueSize","value buffer for one value",C,[]),
("M505",F,"request","count, c.opaque_, (cursorBuf","count, some (cursorBuf m c), (cursorBuf","first call passes the zeroed cursor",C,[]),
("M506",F,"batchLookupCmd","if keysOk then (r.1, c', r.2.elems, some .notExist)","if keysOk then (r.1, c', [], some .notExist)","partial results at the end dropped",C,[]),
("M507",F,"batchLookup","if valsOk then (s, c, es, some .notExist)","if valsOk then (s, c, es, none)","end of iteration not reported",C,[]),
("M508",F,"request","⟨m.id, delete, count * m.keySize","⟨m.id, delete, count","key buffer too small",C,[]),
("M509",F,"nextKey","    if key = none ∧ e = .efault then","    if e = .efault then","guessing for a given key, too",C,[]),
("M510",F,"guess","if lookup g = some .enoent then","if lookup g ≠ none then","guess accepted on any lookup error",C,[]),
("M511",F,"guesses","List.replicate keySize 0xff#8","List.replicate keySize 0x01#8","guess inside arrays",C,[]),
("M512",F,"nextKey","        match next (some g) with","        match next none with","retry without the guessed key",C,[]),
("M513",F,"batchCountResult","(written.getD count, some (if","(0, some (if","count dropped on errors",C,[]),
("M514",F,"request","c.opaque_, (cursorBuf","none, (cursorBuf","cursor never passed",C,[]),
]
