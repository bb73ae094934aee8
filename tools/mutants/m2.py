M = [
("M061","Model/Fd","close","if o.raw < 0 then s\n    else { s with objs := s.objs.set i { o with raw := -1, cleanup := none } }.sysClose","if o.raw < 0 then s\n    else { s with objs := s.objs.set i { o with raw := -1 } }.sysClose","Close does not stop the cleanup","C43 closed once by owner",[]),
("M062","Model/Fd","close","{ s with objs := s.objs.set i { o with raw := -1, cleanup := none } }.sysClose i o.raw.toNat","{ s with objs := s.objs.set i { o with cleanup := none } }.sysClose i o.raw.toNat","Close leaves the number in place (double close)","C43",[]),
("M063","Model/Fd","disown","let s := { s with objs := s.objs.set i { o with raw := -1, cleanup := none } }\n    (o.raw","let s := { s with objs := s.objs.set i { o with raw := -1 } }\n    (o.raw","Disown keeps the cleanup","C43 disowned fds are never closed",[]),
("M064","Model/Fd","newFD","if value ≠ 0 then (some i, s)","if true then (some i, s)","NewFD accepts descriptor 0","C43 fd positive",[]),
("M065","Model/Fd","newFD","let s := s.close i\n      -- ","-- ","descriptor 0 not closed after dup","C43 (leak until GC)",[]),
("M066","Model/Fd","dupAnswer","if 1 ≤ m ∧ s.owner m = .free","if s.owner m = .free","dup may return 0 (minfd dropped)","C43 fd positive",[]),
("M067","Model/PerCPU","align8","(n + 8 - 1) / 8 * 8","(n + 8) / 8 * 8","value size padded although aligned","C12",[]),
("M068","Model/PerCPU","appendElems","(buf ++ b ++ zeros (alignedElemLength - elemLength))","(buf ++ b)","padding omitted","C12",[]),
("M069","Model/PerCPU","appendPerCPUSlice","zeros ((possibleCPUs - slice.length) * alignedElemLength)","zeros ((possibleCPUs - slice.length) * elemLength)","missing CPUs zero filled with the unaligned size","C12",[]),
("M070","Model/PerCPU","appendPerCPUSlice","if slice.length > possibleCPUs then none","if slice.length > possibleCPUs + 1 then none","one value too many accepted","C12",[]),
("M071","Model/PerCPU","sysMarshal","some b => if b.length = size then some b else none","some b => some b","wrong-size encodings accepted","C12/C53",[]),
("M072","Model/Sysenc","unsafeBackingMemory","else if hasUnexportedFields t then none\n","","unexported fields exposed to the kernel","C53",[]),
("M073","Model/Sysenc","unsafeBackingMemory","else if binSize t ≠ sizeof t then none\n","","structs with padding are zero-copied","C53",[]),
("M074","Model/Sysenc","marshal","| some b => if b.length = size then some b else slow\n  | none => slow","| some b => some b\n  | none => slow","size not checked on the fast path","C53 size",[]),
("M075","Model/MapIter","loop","if mi.count ≤ mi.maxEntries then","if true then","no abort","C14",[]),
("M076","Model/MapIter","loop","if mi.count ≤ mi.maxEntries then","if mi.count < mi.maxEntries then","aborts one early: full map never completes","C14 complete",[]),
("M077","Model/MapIter","loop","| (s, .notExist) => loop k fuel s mi\n","| (s, .notExist) => some (s, { mi with done := true }, none)\n","a deleted key ends the iteration","C14",[]),
("M078","Model/MapIter","loop","some (s, { mi with err := none }, some (key, v))","some (s, { mi with err := none, cursor := none }, some (key, v))","cursor lost after yielding","C14",[]),
("M079","Model/MapIter","loop","| (s, .fail) => some (s, { mi with calls := mi.calls + 1, err := some .nextKey }, none)","| (s, .fail) => some (s, { mi with calls := mi.calls + 1, done := true }, none)","errors reported as end of map","C14 Err reports failures",[]),
("M080","Model/Memory","bounds","if off + size < off then false\n  else ","","no overflow check","C17",[]),
("M081","Model/Memory","bounds","off + size ≤ BitVec.ofNat 32","off + size < BitVec.ofNat 32","last variable rejected","C17 bounds complete",[]),
("M082","Model/Memory","writeAt","if m.ro then (m, 0, some .readOnly)\n    else ","","read-only not enforced","C16",[]),
("M083","Model/Memory","writeAt","if off < 0 ∨ off ≥ b.length then (m, 0, some .outOfRange)","if off < 0 ∨ off > b.length then (m, 0, some .outOfRange)","off = len accepted","C16",[]),
("M084","Model/Memory","readAt","if n < p.length then (some p', n, some .eof) else (some p', n, none)","(some p', n, none)","short reads without EOF","C16",[]),
("M085","Model/Memory","copyAt","dst.drop (off + n), n)","dst.drop (off + src.length), n)","copyAt changes length (equal when in range)","C16",[]),
("M086","Model/Memory","updateLoop","if v.offset < offset then (data, .overlap)\n    else","if v.offset < offset ∧ v.size ≠ 0 then (data, .overlap)\n    else","zero sized overlaps pass","C15",[]),
("M087","Model/Memory","updateLoop","if e.toNat > data.length then (data, .exceeds)","if e.toNat > data.length + 1 then (data, .exceeds)","bound off by one","C15",[]),
("M088","Model/Memory","updateDataSection","let h := h ++ [data]\n    let (data, r) := updateLoop 0 data sorted\n    let h := h.set clone data","let h := h ++ [data]\n    let (data, r) := updateLoop 0 data sorted\n    let h := h.set ref data","writes to the original slice","C15 original untouched",[]),
("M089","Model/Memory","Var.set","if !bounds m v.offset v.size then (m, some .eof)\n  else ","","Set without bounds check","C17",[]),
("M090","Model/Memory","Var.get","(v.offset + v.size).toNat - v.offset.toNat","(v.offset + v.size).toNat","Get returns the following bytes too","C17",[]),
("M091","Model/Ringbuf","readSecond","if isBusy len then .retry\n  else","if false then .retry\n  else","busy records are read","C18",[]),
("M092","Model/Ringbuf","dataLenAligned","(dataLen len + 8 - 1) / 8 * 8","dataLen len","sample length not aligned","C18",[]),
("M093","Model/Ringbuf","readSecond","else if isDiscard len then .discarded (prod - cons) cons\n","else if false then .discarded (prod - cons) cons\n","discarded samples delivered","C18",[]),
("M094","Model/Ringbuf","readSecond","let start := (cons &&& mask).toNat\n      let cons := cons + aligned","let start := (localCons &&& mask).toNat\n      let cons := cons + aligned","sample starts at the header","C18",[]),
("M095","Model/Ringbuf","readFirst","else .header (localCons &&& mask).toNat","else .header localCons.toNat","position not masked","C18",[]),
("M096","Model/Ringbuf","readSecond","let cons := localCons + HDR\n","let cons := localCons\n","header not skipped","C18",[]),
("M097","Model/RingReader","RStep.drained","ctl := .out, drainErr := none,","ctl := .out, drainErr := some e,","drain error not cleared","C20 reported once",[]),
("M098","Model/RingReader","RStep.interrupted","RStep bo mask s { s with ctl := .trying, drainErr := some w,","RStep bo mask s { s with ctl := .out, drainErr := some w, rets := s.rets ++ [⟨w, s.ring.recs.length, s.ring.rd⟩],","interruption returned at once without draining","C20",[]),
("M099","Model/RingReader","CStep.idle","(h : s.closers[j]? = some .pollerClosed) (hf : s.inflight = false)","(h : s.closers[j]? = some .pollerClosed)","Close does not wait for the lease","C21",[]),
("M100","Model/RingReader","CStep.checkOpen","(h : s.leases[i]? = some .gotInflight) (hc : s.closed = false)","(h : s.leases[i]? = some .gotInflight)","lease does not check closed","C21",[]),
("M101","Model/RingReader","CStep.closeWin","(h : s.closers[j]? = some .start) (hc : s.closed = false)","(h : s.closers[j]? = some .start)","two closers may win","C21 unmapped once",[]),
("M102","Model/RingReader","CStep.refuse","CStep s { s with inflight := false, leases := s.leases.set i (.done (some true)) }","CStep s { s with leases := s.leases.set i (.done (some true)) }","refused lease keeps inflight: Close spins forever","C21 (liveness of Close)",[]),
("M103","Model/Perf","Cursor.read","let n := if n > c.cap - start then c.cap - start else n\n","","read does not stop at the wrap","C22",[]),
("M104","Model/Perf","Cursor.read","some ((List.range n).map fun j => c.ring (start + j), pos == c.limit","some ((List.range n).map fun j => c.ring (start + j), false","EOF never reported","C22",[]),
("M105","Model/Perf","loadHeadReverse","if head - dataHead > BitVec.ofNat 64 cap then dataHead + BitVec.ofNat 64 cap else head","head","overwritten data read","C22 reverse",[]),
("M106","Model/Perf","loadHeadReverse","if head - dataHead > BitVec.ofNat 64 cap","if head - dataHead ≥ BitVec.ofNat 64 cap","equivalent at the boundary","(equivalent mutant)",[]),
("M107","Model/Perf","readLostRecords","match c.full 16 with","match c.full 8 with","lost record too short","C22",[]),
("M108","Model/Perf","readRecordFromRing","if overwritable ∧ (e = .eof","if (e = .eof","cut-off records hidden in forward mode","C22",[]),
("M109","Model/Perf","Cursor.remaining","(c.limit - c.pos) &&& c.mask","(c.limit - c.pos)","Remaining not masked (same below capacity)","C22 remaining",[]),
("M110","Model/Perf","resume","resume (i + 1) es (a.put i fd)","resume i es (a.put i fd)","all rings stored at index 0","C23",[]),
("M111","Model/Perf","pause","pause (i + 1) es (a.delete i)","pause (i + 1) es a","Pause does nothing","C23",[]),
("M112","Model/PerfReader","PStep.interrupted","PStep s { s with ctl := .woken, pendingErr := some e,","PStep s { s with ctl := .loop, pendingErr := some e,","rings not loaded before the pending error","C20 perf drains first",[]),
("M113","Model/PerfReader","PStep.pending","(h : s.ctl = .loop) (he : s.epollRings = []) (hp : s.pendingErr = some e)","(h : s.ctl = .loop) (hp : s.pendingErr = some e)","pending error returned before draining","C20",[]),
("M114","Model/PerfReader","PStep.loadAll","epollRings := List.range s.rings.length","epollRings := List.range (s.rings.length - 1)","last ring not drained","C20",[]),
("M115","Model/Kconfig","excluded","| some f => !f.contains key","| some f => f.contains key","filter inverted","C45",[]),
("M116","Model/BatchLookup","batchLookupPerCPU","if sliceLen * k = count * (align8 valueSize * cpus) then .ok (elems k sliceLen out)\n  else ","","no zero copy (more correct)","(fixes counterexample: C54 counterexample must fail)",[]),
]
