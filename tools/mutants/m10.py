F="Model/GoFormat"
C="C68"
M=[
 ("M331", F, "structFields", ".ok ((goPadding (offset - prev)).append (f.append r))", ".ok (f.append r)", "no padding before members", C, []),
 ("M332", F, "structFields", "| prev, [] => .ok (goPadding (size - prev))\n  | prev, m :: ms =>\n    if m.bit", "| prev, [] => .ok .nil\n  | prev, m :: ms =>\n    if m.bit", "no padding at the end of structs", C, []),
 ("M333", F, "structFields", "structFields g field size next ms", "structFields g field size offset ms", "the end of the previous member is its start", C, []),
 ("M334", F, "writeStructField", ".ok (f.append (goPadding (size - BitVec.ofNat 32 s0)))", ".ok f", "anonymous unions are not padded", C, []),
 ("M335", F, "writeIntLit", "if s.toNat > 8 then .ok (.bytes s.toNat)", "if s.toNat > 16 then .ok (.bytes s.toNat)", "128 bit integers as Go integers", C, []),
 ("M336", F, "writeIntLit", "if e = 4#8 then (if s ≠ 1#32 then .error .boolSize else .ok .bool)", "if e = 4#8 then .ok .bool", "bools of any size", C, []),
 ("M337", F, "datasecFields", "datasecFields g typ size (v.offset + v.size) vs", "datasecFields g typ size v.offset vs", "padding after a variable counts its bytes again", C, []),
 ("M338", F, "datasecFields", "if linkage ≠ 1 then datasecFields g typ size prev vs", "if linkage ≠ 1 then datasecFields g typ size (v.offset + v.size) vs", "no padding for static variables", C, []),
 ("M339", F, "structFields", "if m.bitfieldSize ≠ 0#32 then structFields g field size prev ms", "if m.bitfieldSize ≠ 0#32 then structFields g field size (bytesOf m.offset) ms", "bit fields are not padded", C, []),
 ("M340", F, "writeTypeLit", ".ok (.array c.toNat ge)", ".ok (.array (c.toNat - 1) ge)", "arrays one short", C, []),
 ("M341", F, "writeEnumLit", ".ok (.int signed s.toNat)", ".ok (.int signed 4)", "all enums are 32 bit", C, []),
 ("M342", F, "writeTypeLit", "structFields g (fun m => writeStructField g names n k m) s 0#32 [m] with", "structFields g (fun m => writeStructField g names n k m) (BitVec.ofNat 32 0) 0#32 [m] with", "unions without padding", C, []),
 ("M343", F, "enumConsts", "if signed then v.value.toInt else (v.value.toNat : Int)", "v.value.toInt", "unsigned enum values written as signed", C, []),
 ("M344", F, "bytesOf", "off.toNat / 8", "off.toNat", "offsets in bits", C, []),
 ("M345", F, "writeTypeDecl", "writeTypeLit g names 100 maxResolveDepth u", "writeTypeLit g names 30 maxResolveDepth u", "recursion bound of the model too small", C, []),
]
