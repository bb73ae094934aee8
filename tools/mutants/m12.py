C="Model/BtfCopy"
K="Model/BtfCache"
M=[
 ("M372", C, "copyTags", "| some _ => (⟨some n, s.elems⟩, n + 1)", "| some _ => (s, n)", "tags of the copy share the array of the original", "C72", []),
 ("M373", C, "copyMemberTags", "({ m with tags := t.1 } :: r.1, r.2)", "(m :: r.1, r.2)", "member tags not copied", "C72", []),
 ("M374", C, "copyTagLists", "(t'.1 :: r.1, r.2)", "(t :: r.1, r.2)", "parameter tags not copied", "C72", []),
 ("M375", C, "register", "put st.copies r a, cids⟩)", "st.copies, cids⟩)", "copy not registered before its children are copied", "C72", []),
 ("M376", C, "setRefs", "{ p with type := at' l (i + 1) p.type }", "{ p with type := at' l i p.type }", "parameters get the type of the previous one", "C72", []),
 ("M377", C, "register", "| some id => put st.copiedIDs a id", "| some id => put st.copiedIDs r id", "ID recorded for the original", "C72", []),
 ("M378", C, "copyNode", "| .enum nm s sg vs => let v := copySlice vs n; (.enum nm s sg v.1, v.2)", "| .enum nm s sg vs => (.enum nm s sg vs, n)", "enum values shared", "C72", []),
 ("M379", C, "childRefs", "| .funcProto r ps => r :: ps.elems.map (·.type)", "| .funcProto r ps => [r]", "parameters not copied", "C72", []),
 ("M380", C, "copySplit", "match copyDecoder fuel base h1 copies with", "match copyDecoder fuel base h1 (fun _ => none) with", "base copied separately from the module", "C72", []),
 ("M381", C, "copyTypes", "| some (l, st2) => some ((id, a) :: l, st2)", "| some (l, st2) => some ((id, t) :: l, st2)", "new spec refers to the old types", "C72", []),
 ("M382", K, "Step.lookup", "| lookup {pc t d} : used d → pc t = .idle → (∀ u, (pc u).holds d = false) → Step", "| lookup {pc t d} : used d → pc t = .idle → Step", "TypeByID without the lock", "C73", []),
 ("M383", K, "Step.typeID", "| typeID {pc t d} : used d → pc t = .idle → (∀ u, (pc u).holds d = false) → Step", "| typeID {pc t d} : used d → pc t = .idle → Step", "TypeID without the lock", "C73", []),
 ("M384", K, "Step.copyBase", "base d = some b → (∀ u, (pc u).holds b = false) → Step base used pc (set pc t (.copyingBase d b))", "base d = some b → Step base used pc (set pc t (.copyingBase d d))", "copying holds only one lock", "C73", []),
 ("M385", K, "CStep.recheck", "| recheck {s t r x} : s.pc t = .wlocked r → s.lookup r = some x →", "| recheck {s t r x} : s.pc t = .wlocked r → s.nextSpec = x →", "module not looked up again under the write lock", "C73", []),
 ("M386", K, "CStep.loadKernel", "| loadKernel {s t} : s.pc t = .wlocked .kernel → s.kernelTypes = none →", "| loadKernel {s t} : s.pc t = .wlocked .kernel →", "kernel loaded again after the lock was taken", "C73", []),
 ("M387", K, "CStep.baseLoad", "| baseLoad {s t n} : s.pc t = .wlocked (.module n) → s.moduleTypes n = none → s.kernelTypes = none →", "| baseLoad {s t n} : s.pc t = .wlocked (.module n) → s.moduleTypes n = none →", "each module loads its own kernel spec", "C73", []),
 ("M388", K, "CStep.lock", "| lock {s t r} : s.pc t = .missed r → (∀ u, (s.pc u).writer = false ∧ (s.pc u).reader = false) →", "| lock {s t r} : s.pc t = .missed r → (∀ u, (s.pc u).reader = false) →", "two writers", "C73", []),
 ("M389", K, "CStep.loadModule", "baseOf := fun x => if x = s.nextSpec then some b else s.baseOf x, nextSpec", "baseOf := s.baseOf, nextSpec", "module spec loaded without base", "C73", []),
 ("M390", K, "CStep.loadModule", "moduleTypes := fun m => if m = n then some s.nextSpec else s.moduleTypes m", "moduleTypes := s.moduleTypes", "loaded module not remembered", "C73", []),
]
