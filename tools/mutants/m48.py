F = "Model/KconfigMap"
C = "C110"
def m(i, d, old, new, bug): return (i, F, d, old, new, bug, C, [])
M = [
 m("M1209","KVar.int?","  | true, .int t => some t","  | _, .int t => some t","a typedef'd LINUX_KERNEL_VERSION is accepted (behaviour differs from the code)"),
 m("M1210","writeFrom","f (data.drop off)","f data","the value is written at the start of the section"),
 m("M1211","writeSlice","    | .ok d => .ok (data.take lo ++ d ++ data.drop hi)","    | .ok d => .ok (data.take lo ++ d ++ data.drop lo)","what follows the variable moves"),
 m("M1212","writeSlice","f ((data.drop lo).take (hi - lo))","f (data.drop lo)","the value may run into the next variable"),
 m("M1213","putVersion","    if t.size ≠ 4 then .error .error\n    else","    if t.size = 0 then .error .error\n    else","LINUX_KERNEL_VERSION of any size"),
 m("M1214","putVersion","(putUint32 bo kv.kernel)","(putUint32 .little kv.kernel)","the version is always little endian"),
 m("M1215","putVersion","writeFrom data v.off.toNat (putUint32","writeFrom data 0 (putUint32","the version is written at offset 0"),
 m("M1216","putWrapper","(if b then 1 else 0)","(if b then 0 else 1)","the wrapper flag is inverted"),
 m("M1217","putWrapper","    | none => .error .error\n    | some b","    | none => .ok data\n    | some b","a failing probe is ignored"),
 m("M1218","collect","      match putWrapper bo w data v with\n      | .error e => .error e\n      | .ok data => collect bo w vs data cs","      match putWrapper bo w data v with\n      | .error e => .error e\n      | .ok _ => collect bo w vs data cs","the wrapper value is dropped"),
 m("M1219","collect","      | .ok data => collect bo w vs data cs\n    else if v.name = ascii \"LINUX_HAS","      | .ok data => .ok (data, cs)\n    else if v.name = ascii \"LINUX_HAS","variables after LINUX_KERNEL_VERSION are skipped"),
 m("M1220","addConfig","cs.filter (fun c => c.name ≠ v.name) ++ [v]","[v]","only the last option is kept"),
 m("M1221","findKConfig","w.file (ascii \"/boot/config-\" ++ r)","w.file (ascii \"/boot/config\")","the configuration of another kernel"),
 m("M1222","findKConfig","    | none => w.file (ascii \"/proc/config.gz\")","    | none => none","no fallback to /proc/config.gz"),
 m("M1223","findKConfig","    | some f => some f","    | some f => some ((w.file (ascii \"/proc/config.gz\")).getD f)","/proc/config.gz is preferred"),
 m("M1224","fill","    match conf.lookup v.name with\n    | none => .error .error","    match conf.lookup v.name with\n    | none => fill bo num conf vs data","a missing option is ignored"),
 m("M1225","fill","(v.off + v.size).toNat","(v.off + v.size - 1).toNat","the end of the slice is off by one"),
 m("M1226","fill","v.typ text (num v.signed text)","v.typ text (num false text)","signed options parsed as unsigned"),
 m("M1227","fill","      | .ok data => fill bo num conf vs data","      | .ok data => .ok data","only one option is filled"),
 m("M1228","resolveKconfig","    if cs.length > 0 then","    if cs.length > 1 then","a single option isn't filled"),
 m("M1229","resolveKconfig","    if cs.length > 0 then","    if cs.length ≥ 0 then","the configuration is needed although there are no options"),
 m("M1230","resolveKconfig","(some (cs.map (·.name)))","none","all of the configuration is kept (harmless: same value)"),
 m("M1231","resolveKconfig","(some (cs.map (·.name)))","(some ((cs.take 1).map (·.name)))","the filter has one name only"),
 m("M1232","resolveKconfig","(List.replicate size.toNat 0)","(List.replicate size.toNat 1)","the section isn't zeroed"),
 m("M1233","resolveKconfig","f.readErr","false","errors of reading are ignored"),
]
