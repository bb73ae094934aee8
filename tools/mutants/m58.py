A="Model/VariableSpec"
M=[(f"M{1436+i}",A,d,o,n,b,"C119",[]) for i,(d,o,n,b) in enumerate([
("setSize","if v.size.toNat = 0 then binSize x else some v.size.toNat","binSize x","size of the value instead of that of the variable"),
("setSize","binSize x else","none else","untyped variables can't be set"),
("setSize","else some v.size.toNat","else some v.typeSize.toNat","size of the type though there is a value"),
("copyTo","src.take dst.length ++ dst.drop src.length","src.take dst.length","shorter than the destination"),
("copyTo","src.take dst.length ++ dst.drop src.length","dst.take src.length ++ src.drop dst.length","source and destination swapped"),
("copyTo","src.take dst.length ++ dst.drop src.length","src","grows the value"),
("set","| none => zeros n\n      | some b => b","| none => zeros n\n      | some _ => zeros n","value cleared before marshaling"),
("set","| none => zeros n\n","| none => []\n","no space for the value"),
("set","(copyTo dst buf) }, none)","(copyTo dst buf) }, some .marshal)","success reported as failure"),
("set","some (copyTo dst buf) }","some dst }","value not copied"),
("set","{ v with value := some (copyTo dst buf) }","{ v with offset := 0#32, value := some (copyTo dst buf) }","offset lost"),
("set","some dst }, some .marshal)","some dst }, none)","failure not reported"),
("get",".error .uninitialized","match c.dec [] with | none => .error .uninitialized | some x => .ok x","uninitialized variables have a value"),
("get","match c.dec b with","match c.dec (zeros b.length) with","zeros are given"),
])]
