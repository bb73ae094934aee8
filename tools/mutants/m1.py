M = [
("M001","Model/OpCode","setJumpOp","if n.jumpOp == InvalidJumpOp then InvalidOpCode else n","n","SetJumpOp forgets the Jump32 Call/Exit check","C01 invalid combinations yield InvalidOpCode",[]),
("M002","Model/OpCode","aluMask","def aluMask : OpCode := 0x3ff0#32","def aluMask : OpCode := 0xfff0#32","ALU mask too wide","C01 values outside the field are rejected",[]),
("M003","Model/OpCode","setSource","!(clsIsJump op.cls || clsIsALU op.cls) || !valid (s.setWidth 32) sourceMask","!(clsIsALU op.cls) || !valid (s.setWidth 32) sourceMask","SetSource refuses jumps","C01 SetSource on jump opcodes",[]),
("M004","Model/OpCode","setMode","else (op &&& ~~~modeMask) ||| m.setWidth 32","else op ||| m.setWidth 32","SetMode does not clear the old mode","C01 Set then get",[]),
("M005","Model/OpCode","setAtomicOp","op.cls != StXClass || op.mode != AtomicMode || !valid a atomicMask","op.cls != StXClass || !valid a atomicMask","SetAtomicOp accepts any StX mode","C01 AtomicOp setter domain",[]),
("M006","Model/Instruction","newBPFRegisters","| .big => (dst <<< 4) ||| (src &&& 0xf#8)","| .big => (src <<< 4) ||| (dst &&& 0xf#8)","register nibbles swapped for big endian","C02/C03 round trip",[]),
("M007","Model/Instruction","unmarshalALU","else if i.off = 16#16 then { i with op := i.op.setALUOp MovSX16, off := 0#16 }","","MovSX16 not decoded","C03 MovSX16 survives",[]),
("M008","Model/Instruction","unmarshal","(cons2.signExtend 64 <<< 32) ||| cons1.setWidth 64","(cons2.signExtend 64 <<< 32) ||| cons1.signExtend 64","low half of a 64-bit immediate is sign extended","C02/C03",[]),
("M009","Model/Instruction","marshal","bo.put32 ((j.cons.sshiftRight 32).setWidth 32)","bo.put32 0#32","high half of 64-bit immediate dropped","C03",[]),
("M010","Model/Instruction","unmarshal","if bo.get32 c0 c1 c2 c3 ≠ 0#32 then .error .nonZeroFields","if false then .error .nonZeroFields","non-zero reserved fields of the second half accepted","C02 decode then encode loses no bits",[]),
("M011","Model/Instruction","marshalClass","if d.1 ≠ native then .error .notSupportedOnOS else .ok (i, d.2)",".ok (i, d.2)","helpers of another platform are encoded","C02/C03/C10",[]),
("M012","Model/Instruction","unmarshal","| _ => .error .missingHalf","| _ => .ok (i, rest)","truncated dword load accepted","C04 truncated streams are errors",[]),
("M013","Model/Platform","encodeConstant","if c >>> 28 > 0#32 then none\n  else","if c >>> 31 > 0#32 then none\n  else","constants overlapping the platform bits accepted","C10 decode(encode)=id",[]),
("M014","Model/Platform","decodeConstant","c &&& ~~~platformMask","c &&& 0x0fffffff#32 &&& ~~~(1#32)","decode drops a bit","C10",[]),
("M015","Model/Program","relOffset","BitVec.ofNat 64 sym - BitVec.ofNat 64 off - 1#64","BitVec.ofNat 64 sym - BitVec.ofNat 64 off","branch target off by one","C06 references land on target",[]),
("M016","Model/Program","symbolOffsets","else if (acc.lookup i.sym).isSome then .error .duplicateSymbol\n","","duplicate symbols silently accepted","C06 duplicate symbol rejected",[]),
("M017","Model/Program","symbolOffsets","if i.sym = \"\" then symbolOffsets r (off + i.ins.width) acc","if i.sym = \"\" then symbolOffsets r (off + 1) acc","dword loads counted as one raw instruction","C06",[]),
("M018","Model/Program","encodeRef","| none => .error .unsatisfiedReference\n    | some s => .ok { i with ins := { i.ins with off","| none => .ok i\n    | some s => .ok { i with ins := { i.ins with off","unresolved jump left as is","C06 unknown symbol rejected",[]),
("M019","Model/Program","encodeMapFD","(c &&& (0xffffffff#64 <<< 32)) ||| fd.setWidth 64","fd.setWidth 64","map fd wipes the offset","C07",[]),
("M020","Model/Program","rewriteMapOffset","(off.setWidth 64 <<< 32) ||| (c &&& 0xffffffff#64)","(off.setWidth 64 <<< 32) ||| c","RewriteMapOffset does not clear old offset","C07",[]),
("M021","Model/Program","encodeMapPointers","if fd < 0 then .error .closedFd\n          else","if fd < -1 then .error .closedFd\n          else","closed map (fd -1) is encoded","C07/C08 closed map rejected",[]),
("M022","Model/Program","hashInput","if i.isLoadFromMap then { i with cons := 0#64 } else i","if i.isLoadFromMap then { i with cons := i.cons &&& 0xffffffff#64 } else i","tag hashes the map fd","C08",[]),
("M023","Model/Program","hashInput","if i.isLoadFromMap then { i with cons := 0#64 } else i","if i.op.isDWordLoad then { i with cons := 0#64 } else i","tag ignores all 64-bit immediates","C08 tag input exact",[]),
("M024","Model/Metadata","set","else push (removeLoop a (h.length + 1) h head none head)","else push (h, head)","old entry not removed on update with nil","C09",[]),
("M025","Model/Metadata","removeLoop","if e = r then writeSlot h head cur node.next","if e = r then writeSlot h head cur none","entries behind the removed one are lost","C09",[]),
("M026","Model/Metadata","removeLoop","removeLoop r n w.1 w.2 (some c) node.next","removeLoop r n (h.set e { node with next := node.next }) head (some e) node.next","removal edits shared nodes in place","C09 copies are independent",[]),
("M027","Model/Deque","grow","read := 0, write := have_, mask","read := 0, write := need, mask","Grow moves write past the elements","C40",[]),
("M028","Model/Deque","grow","let copied := (d.elems.drop pivot ++ d.elems.take pivot).take have_.toNat","let copied := d.elems.take have_.toNat","Grow forgets the pivot","C40",[]),
("M029","Model/Deque","pop","let d := { d with write := d.write - 1 }\n    let t","let t","Pop does not move write","C40",[]),
("M030","Model/Deque","shift","let d ← d.store d.read zero\n    some (t, { d with read := d.read + 1 })","let d ← d.store (d.read + 1) zero\n    some (t, { d with read := d.read + 1 })","Shift zeroes the wrong slot","C40",[]),
("M031","Model/Deque","grow","else if d.elems.length ≥ need.toNat then some d","else if d.elems.length + 1 ≥ need.toNat then some d","Grow boundary off by one","C40",[]),
("M032","Model/Deque","reset","resetLoop zero d (d.write.toNat - d.read.toNat) d.read\n    ","resetLoop zero d 0 d.read\n    ","Reset does not clear the elements","C40 (memory retention, not observable in results)",[]),
("M033","Model/Helpers","alignU","some ((n + a - 1) / a * a)","some ((n + a) / a * a)","Align rounds exact multiples up","C41",[]),
("M034","Model/Helpers","isPow","n != 0 && (n &&& (n - 1)) == 0","(n &&& (n - 1)) == 0","IsPow(0) true","C41",[]),
("M035","Model/Helpers","between","if a > b then (b, a) else (a, b)","(a, b)","Between does not order its bounds","C41",[]),
("M036","Model/Helpers","Version.kernel","if v.patch < 255 then v.patch else 255","v.patch","no clamp of the patch level","C47",[]),
("M037","Model/Helpers","Version.less","else if v.minor ≠ o.minor then v.minor < o.minor\n","","Less ignores minor","C47",[]),
("M038","Model/Helpers","versionFromCode","((code >>> 8).setWidth 8).setWidth 16","((code >>> 8).setWidth 16)","minor keeps the major bits","C47",[]),
("M039","Model/Kconfig","processLine","| some _ => some m\n        | none","| some _ => some ((key, value) :: m)\n        | none","later assignments win","C45 first assignment",[]),
("M040","Model/Kconfig","processLine","if value.isEmpty then none\n      else ","","empty values accepted","C45",[]),
("M041","Model/Kconfig","scan","if ret.length = f.length then some ret","if ret.length + 1 = f.length then some ret","stops one key early","C45 filter completeness",[]),
("M042","Model/Kconfig","putInteger","if t.enc = .bool ∧ n > 1 then .error .error\n  else ","","booleans larger than 1 accepted","C46",[]),
("M043","Model/Kconfig","fitsSigned","n.toInt > 2 ^ (bits - 1) - 1","n.toInt > 2 ^ (bits - 1)","signed bound off by one","C46",[]),
("M044","Model/Kconfig","putInteger","else if data.length < t.size.toNat then .error .error","else if data.length < t.size.toNat - 1 then .error .error","length check off by one","C46",[]),
("M045","Model/Kconfig","putInteger","else .ok (overwrite data (bo.put16 (n.setWidth 16)))","else .ok (overwrite data (ByteOrder.little.put16 (n.setWidth 16)))","wrong byte order for 16 bit","C46",[]),
("M046","Model/Kconfig","trimQuotes","((s.dropWhile (· == 0x22#8)).reverse.dropWhile (· == 0x22#8)).reverse","s.dropWhile (· == 0x22#8)","trailing quote kept","C46 strings",[]),
("M047","Model/Kconfig","putValueTri","else if value = ascii \"m\" then .ok (overwrite data (bo.put32 2))","else if value = ascii \"m\" then .ok (overwrite data (bo.put32 1))","m stored as y","C46 tristate",[]),
("M048","Model/Kallsyms","assignLoop","if (m s.name).getD 0 ≠ 0 then .error .ambiguous\n        else ","","duplicates: last wins","C44 ambiguous",[]),
("M049","Model/Kallsyms","assignLoop","if s.addr = 0 then .error .restricted else assignLoop rest (m.set s.name s.addr)","assignLoop rest (m.set s.name s.addr)","restricted kernels not reported","C44",[]),
("M050","Model/Kallsyms","assign","if n ∈ names then (cache n).getD (vals n) else vals n","vals n","cached values not returned","C44",[]),
("M051","Model/Kallsyms","assign","(fun n => if n ∈ request then some ((m n).getD 0) else cache n)","(fun n => if n ∈ request then m n else none)","cache is replaced instead of extended","C44 history (still correct: cache entries recomputed)",[]),
("M052","Model/Kallsyms","parseSymbol","| some (m, _) => some ⟨addr, name, trimBrackets m⟩","| some (m, _) => some ⟨addr, name, m⟩","module brackets kept","C44 parse kernel line",[]),
("M053","Model/Kallsyms","hexDigit","n - 0x61 + 10","n - 0x61 + 9","hex digit a-f off by one","C44",[]),
("M054","Model/Mountinfo","unescape","| '\\\\' :: '0' :: '1' :: '2' :: r => '\\n' :: unescape r\n","","newline escape not decoded","C48",[]),
("M055","Model/Mountinfo","parseLine","| _ :: _ :: _ :: root :: mp :: _ :: _ => some","| _ :: _ :: _ :: mp :: root :: _ :: _ => some","root and mount point swapped","C48",[]),
("M056","Model/Mountinfo","filterByFSType","else if e.mountPoint ∈ mounts then filterByFSType fstype es mounts\n","","duplicate mount points kept","C48 filterByFSType",[]),
("M057","Model/Feature","Step.start","(h : s.pc t = .wlocked) (hd : s.done = false)","(h : s.pc t = .wlocked)","missing re-check under the write lock","C42 probe once",[]),
("M058","Model/Feature","Step.lock","(hl : ∀ u, (s.pc u).writer = false ∧ (s.pc u).reader = false)","(hl : ∀ u, (s.pc u).reader = false)","write lock not exclusive","C42",[]),
("M059","Model/Feature","Step.finInconclusive","Step verOk s { s with pc := set s.pc t (.leaving (.probeError e))","Step verOk s { s with done := true, pc := set s.pc t (.leaving (.probeError e))","inconclusive results cached as success","C42",[]),
("M060","Model/Feature","Step.finUnsupported","{ s with done := true, result := .notSupported,","{ s with done := true,","negative result not stored","C42 later calls agree",[]),
]
