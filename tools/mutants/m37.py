F = "Model/UnsafeMemory"
C = "C100"
M = [
 ("M936", F, "allocate", "let n := align (size + h.page) h.page", "let n := align size h.page", "no extra page: the mapping reaches beyond the slice", C, []),
 ("M937", F, "allocate", ".ok (alloc, n, align alloc h.page)", ".ok (alloc, n, alloc)", "the address is not aligned", C, []),
 ("M938", F, "newUnsafeMemory", "if size % h.page ≠ 0 then (s, .error .size)\n  else\n", "", "sizes that are not whole pages are accepted", C, []),
 ("M939", F, "newUnsafeMemory", "| (s, .ok f) => (s, .ok (⟨some base, size, true, true⟩, f))", "| (s, .ok f) => (s, .ok (⟨some base, size, false, true⟩, f))", "a read-only mapping is said to be writable", C, []),
 ("M940", F, "newUnsafeMemory", "if e = EPERM ∨ e = EACCES then", "if e = EPERM then", "maps with BPF_F_RDONLY_PROG can't be mapped", C, []),
 ("M941", F, "mapmap", ".ok ⟨alloc, n, base, size⟩", ".ok ⟨alloc, n, base, size - h.page⟩", "the finalizer repairs one page less", C, []),
 ("M942", F, "unmap", "f.base f.size (fun _ => .anon)", "f.base f.size (fun _ => .hole)", "munmap in the finalizer", C, []),
 ("M943", F, "okKind", "[Basic.uintptr, .bool", "[Basic.uintptr, .int, .bool", "int is accepted", C, []),
 ("M944", F, "isAtomic", '["Bool", "Int32"', '["Bool", "Value", "Int32"', "atomic.Value is accepted", C, []),
 ("M945", F, "isHostLayout", 'pkg == "structs" && name == "HostLayout"', 'name == "HostLayout"', "a user's HostLayout is accepted", C, []),
 ("M946", F, "checkType", "else checkFields fs && fs.any isHostLayout", "else checkFields fs", "HostLayout isn't required", C, []),
 ("M947", F, "checkFields", "(isHostLayout f || checkType f) && checkFields fs", "(isHostLayout f || checkType f) || checkFields fs", "only one field is checked", C, []),
 ("M948", F, "checkType", "  | .array _ e => checkType e", "  | .array _ _ => true", "elements of arrays aren't checked", C, []),
 ("M949", F, "checkUnsafeMemory", "  else if m.ro then some .readOnly\n  else if !m.heap", "  else if !m.heap", "read-only memory can be pointed to", C, []),
 ("M950", F, "checkUnsafeMemory", "else if !m.heap then some .notHeap\n", "", "memory outside the heap can be pointed to", C, []),
 ("M951", F, "checkUnsafeMemory", "else if off.toNat % alignOf h t ≠ 0 then some .unaligned\n", "", "no check of alignment", C, []),
 ("M952", F, "checkUnsafeMemory", "bounds m off (BitVec.ofNat 32 (sizeOf' h t))", "bounds m off 0", "the end of the value isn't checked", C, []),
 ("M953", F, "checkVariable", "| t => if v.size.toNat ≠ sizeOf' h t then some .invalidType else none", "| t => if v.size.toNat < sizeOf' h t then some .invalidType else none", "smaller types are accepted", C, []),
 ("M954", F, "bounds", "if off + size < off then false else off + size", "if false then false else off + size", "the sum may overflow", C, []),
 ("M955", F, "varGet", ".use [.var] <| .call [.mem] <| .branch (.use [.var] (.ret [])) (.ret [])\n\n/-- Variable.Set", ".use [.var] <| .call [.mem] <| .branch (.ret []) (.ret [])\n\n/-- Variable.Set", "Get doesn't use the variable after reading its memory", C, []),
 ("M956", F, "memoryPointer", ".ok (m.base.getD 0 + off.toNat)", ".ok (m.base.getD 0)", "the offset is dropped", C, []),
 ("M957", F, "mmapFixed", "fun i => .map id i writable", "fun i => .map id (i + 1) writable", "mapping from the second page on (offset)", C, []),
]
