A="Model/MapAttr"
M=[
("M1257",A,"newObjName","name.take 15 ++ List.replicate (16 - (name.take 15).length) 0#8","name.take 16 ++ List.replicate (16 - (name.take 16).length) 0#8","names aren't terminated","C112",[]),
("M1258",A,"sanitize","c.toNat == 46 || c.toNat == 95","c.toNat == 46 || c.toNat == 45 || c.toNat == 95","dashes are kept","C112",[]),
("M1259",A,"fillName","if env.allowsDot = .notSupported then","if env.allowsDot ≠ .ok then","dots are removed if the probe fails for another reason","C112",[]),
("M1260",A,"fillName","if env.objName = .notSupported then List.replicate 16 0#8\n  else","if false then List.replicate 16 0#8\n  else","names are given to kernels that don't know them","C112",[]),
("M1261",A,"mustHaveNoPrealloc","t == 24 || t == 11","t == 24","LPM tries may be preallocated","C112",[]),
("M1262",A,"mustHaveZeroMaxEntries","t == 19 || t == 21","t == 19","per-CPU storage may have entries","C112",[]),
("M1263",A,"isPow","n != 0 && (n &&& (n - 1)) == 0","(n &&& (n - 1)) == 0","0 is a power of two","C112",[]),
("M1264",A,"invalidHint","if m.maxEntries = 0 ∧ ¬ mustHaveZeroMaxEntries m.type then","if m.maxEntries = 0 then","storage without entries is blamed","C112",[]),
("M1265",A,"missing","(m.flags &&& 128 ≠ 0 ∨ m.flags &&& 256 ≠ 0) ∧","(m.flags &&& 128 ≠ 0) ∧","write-only maps don't need the modifiers","C112",[]),
("M1266",A,"missing","env.mmapable ≠ .ok then","env.mmapable = .notSupported then","only ErrNotSupported of the mmap probe is reported","C112",[]),
("M1267",A,"missing","m.flags &&& 4096 ≠ 0 ∧ env.innerMaps ≠ .ok then some .innerMaps","m.flags &&& 2048 ≠ 0 ∧ env.innerMaps ≠ .ok then some .innerMaps","wrong flag for inner maps","C112",[]),
("M1268",A,"lateReport","(attr.type = 27 ∨ attr.type = 31)","(attr.type = 27)","user ring buffers aren't explained","C112",[]),
("M1269",A,"lateReport","≠ 0 ∨ ¬ isPow","≠ 0 ∧ ¬ isPow","size is only explained if it is wrong twice","C112",[]),
("M1270",A,"handleError","else if e = .errno eperm then .cause .memlock\n","","EPERM isn't explained, and may be hidden by a probe","C112",[]),
("M1271",A,"handleError","if e = .token then .cause .none\n  else ","","missing privileges of the token may be hidden","C112",[]),
("M1272",A,"handleError","(if e = .errno einval then invalidHint m else none)","(invalidHint m)","hints for other errors than EINVAL","C112",[]),
("M1273",A,"plainAttr","numaNode := s.numaNode, mapExtra","numaNode := 0, mapExtra","the NUMA node is dropped","C112",[]),
("M1274",A,"plainAttr","keySize := m.keySize, valueSize := m.valueSize","keySize := s.m.keySize, valueSize := m.valueSize","the key size from before the fixup","C112",[]),
("M1275",A,"structOps","flags := a.flags ||| 32768, valueObjFd := fd","flags := 32768, valueObjFd := fd","flags of struct_ops of a module are overwritten","C112",[]),
("M1276",A,"structOps","{ a with valueSize := size, vmlinuxValue := target }","{ a with vmlinuxValue := target }","the size of the kernel's type isn't used","C112",[]),
("M1277",A,"structOps","({ a with btfKey := 0, btfValue := 0 }, ","(a, ","IDs of key and value are passed for struct_ops","C112",[]),
("M1278",A,"withBTF","btfKey := key, btfValue := value }","btfKey := value, btfValue := key }","IDs of key and value swapped","C112",[]),
("M1279",A,"withBTF","| .notSupported => if m.type = 26 then structOps env false a m else .ok (a, m)","| .notSupported => .error .btf","a kernel without BTF is an error","C112",[]),
("M1280",A,"withBTF","| .notSupported => if m.type = 26 then structOps env false a m else .ok (a, m)","| .notSupported => .ok (a, m)","struct_ops without BTF","C112",[]),
("M1281",A,"withoutBTF","{ a with btfFd := 0, btfKey := 0, btfValue := 0 }","{ a with btfFd := 0 }","the second attempt has the IDs still","C112",[]),
("M1282",A,"calls","if (e = .errno enotsupp ∨ e = .errno einval) ∧ a.btfFd ≠ 0 then","if (e = .errno einval) ∧ a.btfFd ≠ 0 then","no second attempt after ENOTSUPP","C112",[]),
("M1283",A,"calls","∧ a.btfFd ≠ 0 then","then","a second attempt without BTF in the first","C112",[]),
("M1284",A,"calls",".error (.create e (handleError env (withoutBTF a) m e))",".error (.create (.errno einval) (handleError env (withoutBTF a) m (.errno einval)))","the first error is reported","C112",[]),
("M1285",A,"createMap","if ¬ s.extraOk then ([], .error .extra)\n  else ","","non-zero extra bytes are ignored","C112",[]),
("M1286",A,"createMap","if (Platform.decodeConstant m.type).1 ≠ \"linux\" then ([], .error .platform)\n      else ","","maps of another platform are created","C112",[]),
]
