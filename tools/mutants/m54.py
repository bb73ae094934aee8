A="Model/MapHandles"
M=[
("M1327",A,"newMapFromParts","if MapCreate.hasPerCPU a.typ = false then","if MapCreate.hasPerCPU a.typ = true then","the size is multiplied for the wrong maps","C115",[]),
("M1328",A,"newMapFromParts","(MapSpec.align32 a.valueSize 8).toNat * n","a.valueSize.toNat * n","values aren't rounded up","C115",[]),
("M1329",A,"newMapFromParts","(MapSpec.align32 a.valueSize 8).toNat * n","(MapSpec.align32 a.valueSize 4).toNat * n","values are rounded up to four bytes","C115",[]),
("M1330",A,"newMapFromFD","if info = false then (none, { w with st := closeFd fd w.st })","if info = false then (none, w)","the descriptor is left open if the info can't be had","C115",[]),
("M1331",A,"newMapFromFD","newMapFromParts cpus fd mid (kn.attr mid)","newMapFromParts cpus fd mid (kn.attr fd)","the attributes of another map","C115",[]),
("M1332",A,"newMapFromFD","(none, { w with garbage := (fd, .map mid) :: w.garbage })","(none, { w with garbage := (fd, .map mid) :: w.garbage, st := closeFd fd w.st })","closed explicitly, and once more by the cleanup","C115",[]),
("M1333",A,"newFD","else ((dup pick ok (some 0) s).1, closeFd 0 (dup pick ok (some 0) s).2)","else dup pick ok (some 0) s","descriptor 0 stays open after it was duplicated","C115",[]),
("M1334",A,"adopt","| _ => (none, { w with st := closeFd fd w.st })","| _ => (none, w)","descriptors of other objects are left open","C115",[]),
("M1335",A,"fromID","newMapFromFD kn info cpus (openFd pick (.map mid) w.st).1 mid","newMapFromFD kn info cpus mid mid","the ID is taken for the descriptor","C115",[]),
("M1336",A,"loadPinned","if link = false then (none, { w with st := closeFd fd s })","if link = false then (none, { w with st := s })","the descriptor is left open if its type can't be found out","C115",[]),
("M1337",A,"loadPinned","      | _ => (none, { w with st := closeFd fd s })","      | _ => (none, { w with st := s })","the descriptor of a program isn't closed","C115",[]),
("M1338",A,"loadPinned","{ m with pinnedPath := path }","m","the map doesn't know where it is pinned","C115",[]),
("M1339",A,"clone","match dup pick ok m.fd s with","match (m.fd, s) with","the clone shares the descriptor","C115",[]),
("M1340",A,"clone","some ⟨m.attr, some d, m.mid, [], m.fullValueSize, none⟩, s)","some ⟨m.attr, some d, m.mid, m.pinnedPath, m.fullValueSize, none⟩, s)","the clone thinks it is pinned","C115",[]),
("M1341",A,"clone","m.fullValueSize, none⟩, s)","m.attr.valueSize.toNat, none⟩, s)","the clone of a per-CPU map has the wrong size","C115",[]),
("M1342",A,"clone","m.fullValueSize, none⟩, s)","m.fullValueSize, m.memory⟩, s)","the clone shares the memory","C115",[]),
("M1343",A,"close","({ m with fd := none }, m.fd.close s)","(m, m.fd.close s)","closing twice closes a descriptor of someone else","C115",[]),
("M1344",A,"close","({ m with fd := none }, m.fd.close s)","({ m with fd := none }, s)","closing only forgets","C115",[]),
("M1345",A,"close","({ m with fd := none }, m.fd.close s)","({ m with fd := none, memory := none }, m.fd.close s)","the memory is dropped","C115",[]),
("M1346",A,"handle","∨ kn.btf m.mid = 0 then","then","maps without BTF get a handle","C115",[]),
("M1347",A,"handle","(handleFromID pick c (kn.btf m.mid) s).1.map fun fd => (fd, kn.btf m.mid)","(handleFromID pick c (kn.btf m.mid) s).1.map fun fd => (fd, m.mid)","the handle names the map instead of its BTF","C115",[]),
("M1348",A,"newMemory","| .other => none","| .other => if ro = .ok then some ⟨fresh, size, true, false⟩ else none","every failure makes the memory read-only","C115",[]),
("M1349",A,"newMemory","if ro = .ok then some ⟨fresh, size, true, false⟩ else none","if ro = .ok then some ⟨fresh, size, false, false⟩ else none","read-only memory is taken for writable","C115",[]),
("M1350",A,"mem","if m.attr.flags &&& 0x400 = 0 then","if m.attr.flags &&& 0x800 = 0 then","the wrong flag","C115",[]),
("M1351",A,"mem","(some mm, { m with memory := some mm }, mapped ++ [mm])","(some mm, m, mapped ++ [mm])","each call maps again","C115",[]),
("M1352",A,"mem","newMemory (if m.fd = none then .other else rw)","newMemory rw","closed maps can be mapped","C115",[]),
]
