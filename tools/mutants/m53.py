A="Model/OnceCache"
M=[
("M1304",A,"scanUint64","if n < 2 ^ 64 then","if n < 2 ^ 64 + 1 then","2^64 wraps to zero","C114",[]),
("M1305",A,"parseUint64","if newlineOrEnd r then some v else none","some v","rubbish after the number is accepted","C114",[]),
("M1306",A,"readUint64","| .error e => .error (.os e)","| .error _ => .error .parse","the reason why a file can't be read is lost","C114",[]),
("M1307",A,"parseUint64","match literals text data with","match some data with","the text of the format isn't looked for","C114",[]),
("M1308",A,"Step.hit","Step s { s with pc := setPC s.pc t (.returning k (.ok v)) }\n  -- io.go:111","Step s { s with pc := setPC s.pc t (.returning k (.ok 0)) }\n  -- io.go:111","hits return zero","C114",[]),
("M1309",A,"Step.recheck","        | some w => .leaving k w\n","        | some _ => .leaving k v\n","the second to store returns its own number","C114",[]),
("M1310",A,"Step.recheck","Step s { s with pc := setPC s.pc t (match s.cache k with\n        | some w => .leaving k w\n        | none => .storing k v) }","Step s { s with pc := setPC s.pc t (.storing k v) }","no second look: the last to store wins","C114",[]),
("M1311",A,"Step.lock","(hl : ∀ u, (s.pc u).writer = false ∧ (s.pc u).reader = false) :\n      Step s { s with pc := setPC s.pc t (.wlocked k v) }","(hl : ∀ u, (s.pc u).writer = false) :\n      Step s { s with pc := setPC s.pc t (.wlocked k v) }","the table is changed while others read it","C114",[]),
("M1312",A,"Step.rlock","(h : s.pc t = .entered k) (hw : ∀ u, (s.pc u).writer = false) :\n      Step s { s with pc := setPC s.pc t (.rlocked k) }\n  -- io.go:107","(h : s.pc t = .entered k) :\n      Step s { s with pc := setPC s.pc t (.rlocked k) }\n  -- io.go:107","the table is read without a lock","C114",[]),
("M1313",A,"Step.read","match readUint64 k.1 file with","match readUint64 [] file with","the format isn't used","C114",[]),
("M1314",A,"Step.read","| .error e => .returning k (.error e)\n          | .ok v => .got k v","| .error _ => .got k 0\n          | .ok v => .got k v","errors are remembered as zero","C114",[]),
("M1315",A,"Step.store","cache := store s.cache k v, pc","cache := store s.cache (k.2, k.1) v, pc","format and path swapped in the key","C114",[]),
("M1316",A,"Step.store","cache := store s.cache k v, pc := setPC s.pc t (.leaving k v)","pc := setPC s.pc t (.leaving k v)","nothing is remembered","C114",[]),
("M1317",A,"store","if j = k then some v else m j","if j = k then some v else none","storing forgets the others","C114",[]),
("M1318",A,"Step.miss","(h : s.pc t = .peeked k none) :\n      Step s { s with pc := setPC s.pc t (.missed k) }\n  -- io.go:113","(o : Option (BitVec 64)) (h : s.pc t = .peeked k o) :\n      Step s { s with pc := setPC s.pc t (.missed k) }\n  -- io.go:113","reads the file in spite of a hit","C114",[]),
("M1319",A,"Probes.Step.start","(h : s.pc t = .wlocked k) (hf : s.features k = none) :\n      Step s { s with pc := setPC s.pc t (.making k)","(h : s.pc t = .wlocked k) :\n      Step s { s with pc := setPC s.pc t (.making k)","no second look: two tests for one key","C114",[]),
("M1320",A,"Probes.Step.lock","(h : s.pc t = .missed k) (hl : ∀ u, (s.pc u).writer = false ∧ (s.pc u).reader = false) :","(h : s.pc t = .missed k) :","Lock doesn't exclude","C114",[]),
("M1321",A,"Probes.Step.make","pc := setPC s.pc t (.storing k s.next), log","pc := setPC s.pc t (.storing k 0), log","all keys share one test","C114",[]),
("M1322",A,"Probes.Step.store","features := store s.features k f, pc := setPC s.pc t (.leaving k f)","pc := setPC s.pc t (.leaving k f)","tests aren't kept","C114",[]),
("M1323",A,"Probes.Step.hit","Step s { s with pc := setPC s.pc t (.returning k f) }\n  -- feature.go:211\n","Step s { s with pc := setPC s.pc t (.returning k k) }\n  -- feature.go:211\n","hits return another test","C114",[]),
("M1324",A,"Probes.Step.peek","setPC s.pc t (.peeked k (s.features k))","setPC s.pc t (.peeked k (s.features 0))","looks up another key","C114",[]),
("M1325",A,"PC.writer","| .wlocked .. | .storing .. | .leaving .. => true","| .wlocked .. | .leaving .. => true","the lock is released before storing","C114",[]),
("M1326",A,"Step.unlock","(h : s.pc t = .leaving k v) :\n      Step s { s with pc := setPC s.pc t (.returning k (.ok v)) }","(h : s.pc t = .leaving k v) (hn : v ≠ 0) :\n      Step s { s with pc := setPC s.pc t (.returning k (.ok v)) }","the lock isn't released for the number zero","C114",[]),
]
