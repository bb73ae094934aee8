A="Model/AttachTarget"
M=[
 ("M418", A, "nextLoop", "close it.handle { st with clock := st.clock + 2, opened := st.opened + 1 })", "{ st with clock := st.clock + 2, opened := st.opened + 1 })", "previous handle not closed by Next", "C76", []),
 ("M419", A, "nextLoop", "| .error .notExist => some (false, { it with handle := none }, close it.handle { st with clock := st.clock + 1 })", "| .error .notExist => some (false, it, close it.handle { st with clock := st.clock + 1 })", "handle kept after it was closed", "C76", []),
 ("M420", A, "nextLoop", "nextLoop w fuel id' it { st with clock := st.clock + 2 }", "nextLoop w fuel id it { st with clock := st.clock + 2 }", "same ID retried forever", "C76", []),
 ("M421", A, "nextLoop", "{ it with id := id', handle := some ⟨st.opened, id'⟩ }", "{ it with handle := some ⟨st.opened, id'⟩ }", "iterator does not advance", "C76", []),
 ("M422", A, "findHandleLoop", "if pred i then some (.ok h,", "if !pred i then some (.ok h,", "predicate negated", "C76", []),
 ("M423", A, "findInModuleLoop", "if i.isModule then", "if true then", "all BTF objects searched", "C76", []),
 ("M424", A, "Info.isModule", "i.isKernel && i.name ≠ vmlinux", "i.isKernel", "vmlinux taken for a module", "C76", []),
 ("M425", A, "findInKernel", "| .ok t => some (.ok (t, none), st)\n    | .error .notFound =>", "| .error .perm => some (.error .perm, st)\n    | .ok _ | .error .notFound =>", "modules preferred to the kernel", "C76", []),
 ("M426", A, "targetName", "| .tracing, .fexit => some (name, .func)", "| .tracing, .fexit => none", "fexit not recognised", "C76", []),
 ("M427", A, "targetName", "0x5f#8] ++ name, .typedef)", "0x5f#8] ++ name, .func)", "raw tracepoints looked up as functions", "C76", []),
 ("M428", A, "findProgramTarget", "| some (.error .notFound, st) => some (.error .notSupported, st)\n", "", "missing target is not ErrNotSupported", "C76", []),
 ("M429", A, "findProgramTarget", "| none => some (.error .typeID, close h st)", "| none => some (.error .typeID, st)", "module leaked if TypeID fails", "C76", []),
 ("M430", A, "structOpsTarget", "some (.ok ⟨id, h, some i⟩, st)", "some (.ok ⟨id, h, some (i + 1)⟩, st)", "wrong member index", "C76", []),
 ("M431", A, "loadWithTarget", "some (.ok t, close t.objFd st)", "some (.ok t, st)", "module not closed after loading", "C76", []),
 ("M432", A, "attachTarget", "| some (.ok (h, id), st) => some (.ok ⟨id, h, none⟩, st)", "| some (.ok (h, id), st) => some (.ok ⟨id, none, none⟩, close h st)", "module descriptor not passed", "C76", []),
 ("M433", A, "cut", "if b = 0x3a#8 then ([], bs)", "if b = 0x3a#8 then ([], b :: bs)", "separator kept in the member", "C76", []),
]
