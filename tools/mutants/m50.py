A="Model/Associate"
M=[
("M1239",A,"associateOne","if i.ins.isLoadFromMap then some { i with ref := \"\", map := some m } else none","some { i with ref := \"\", map := some m }","AssociateMap no longer checks that the instruction is a load of a map","C111",[]),
("M1240",A,"associateOne","some { i with ref := \"\", map := some m } else none","some { i with map := some m } else none","AssociateMap keeps the reference","C111",[]),
("M1241",A,"loop","| none => (i :: r, .error .notLoad)","| none => (i :: (loop sym m r found).1, (loop sym m r found).2)","AssociateMap skips references that aren't loads of maps","C111",[]),
("M1242",A,"loop","(loop sym m r true).1, (loop sym m r true).2)","(loop sym m r found).1, (loop sym m r found).2)","found isn't set","C111",[]),
("M1243",A,"associateMap","if found then (q, none) else (q, some .unreferenced)","(q, none)","an unreferenced symbol isn't reported","C111",[]),
("M1244",A,"associateMap","if sym = \"\" then (p, some .empty)\n  else match","if sym = \"#\" then (p, some .empty)\n  else match","the empty symbol is accepted: every instruction without reference is given the map","C111",[]),
("M1245",A,"symbolIndices","if (acc.lookup i.sym).isSome then none\n    else ","","duplicate symbols are accepted by SymbolOffsets","C111",[]),
("M1246",A,"symbolIndices","if i.sym = \"\" then symbolIndices r (n + 1) acc","if i.sym = \"\" then symbolIndices r n acc","instructions without symbol aren't counted","C111",[]),
("M1247",A,"addRef","(k, l ++ [n]) :: r else","(k, n :: l) :: r else","offsets of references are prepended","C111",[]),
("M1248",A,"addRef","(k, l ++ [n]) :: r else","(k, [n]) :: r else","only the last reference to a symbol is kept","C111",[]),
("M1249",A,"referenceOffsets","if i.ref = \"\" then referenceOffsets r (n + 1) acc else ","","instructions without reference are entered with the empty symbol","C111",[]),
("M1250",A,"tagWith","(h b).take 8","(h b).take 16","tags have sixteen bytes","C111",[]),
("M1251",A,"hasTag","if t = a then .ok true\n    else ","","HasTag no longer knows the SHA-256 tag","C111",[]),
("M1252",A,"hasTag","match tagWith sha1 native bo p with","match tagWith sha256 native bo p with","HasTag no longer knows the SHA-1 tag","C111",[]),
("M1253",A,"hexDigit","BitVec.ofNat 8 (87 + n)","BitVec.ofNat 8 (55 + n)","tags in upper case","C111",[]),
("M1254",A,"hex","[hexDigit (c.toNat / 16), hexDigit (c.toNat % 16)]","[hexDigit (c.toNat % 16), hexDigit (c.toNat / 16)]","digits of a byte swapped","C111",[]),
("M1255",A,"name","| i :: _ => i.sym","| i :: r => if i.sym = \"\" then name r else i.sym","Name looks for the first symbol anywhere","C111",[]),
("M1256","Model/Program","hashInput","if i.isLoadFromMap then { i with cons := 0#64 } else i","if i.isLoadFromMap then { i with cons := 0#64, src := 0#8 } else i","the pseudo source of map loads is cleared before hashing","C111",[]),
]
