F = "Model/CoreRelocate"
C = "C95"
M = [
("M832", F, "collectLoop", "if relo.accs ≠ [] ∨ relo.acc ≠ 0 then .error .accessor", "if relo.accs ≠ [] then .error .accessor", "the first accessor of a local relocation isn't checked", C, []),
("M833", F, "collectLoop", "⟨relo.kind, relo.id.setWidth 64, id.setWidth 64, false, false⟩", "⟨relo.kind, id.setWidth 64, relo.id.setWidth 64, false, false⟩", "local and target ID swapped", C, []),
("M834", F, "collectLoop", "| (some id, b) => collectLoop g (i + 1) relos b groups", "| (some id, _) => collectLoop g (i + 1) relos b groups", "the type isn't kept in the builder", C, []),
("M835", F, "collectLoop", "else collectLoop g (i + 1) relos b (addToGroup i relo groups) result", "else collectLoop g i relos b (addToGroup i relo groups) result", "index not advanced", C, []),
("M836", F, "addToGroup", "if t = relo.typ then (t, ⟨gr.relos ++ [relo], gr.indices ++ [i]⟩) :: rest", "if t = relo.typ then (t, ⟨gr.relos ++ [relo], i :: gr.indices⟩) :: rest", "positions in the wrong order", C, []),
("M837", F, "addToGroup", "    if t = relo.typ then (t, ⟨gr.relos", "    if true then (t, ⟨gr.relos", "all relocations in one group", C, []),
("M838", F, "candidates", "| .error .notFound => candidates name ts", "| .error .notFound => .ok []", "targets after one without the type are ignored", C, []),
("M839", F, "candidates", "| .ok more => .ok (types ++ more)", "| .ok more => .ok (if types = [] then more else types)", "only the first target with the type counts", C, []),
("M840", F, "candidates", "| .error e => .error e\n    | .ok types => match candidates name ts with\n      | .error e => .error e", "| .error _ => candidates name ts\n    | .ok types => match candidates name ts with\n      | .error e => .error e", "errors decoding a target are ignored", C, []),
("M841", F, "writeBack", "| index :: indices, f :: fixups, result => writeBack indices fixups (result.set index f)", "| index :: indices, f :: fixups, result => writeBack indices fixups (result.set (index + 1) f)", "answers written to the wrong position", C, []),
("M842", F, "groupLoop", "if (g localType).name = [] then .error .unnamed\n    else match candidates (newEssentialName (g localType).name) targets with", "if (g localType).name = [] then groupLoop g compute targets groups result\n    else match candidates (newEssentialName (g localType).name) targets with", "anonymous types skipped", C, []),
("M843", F, "groupLoop", "candidates (newEssentialName (g localType).name) targets", "candidates (g localType).name targets", "flavour not cut off", C, []),
("M844", F, "coreRelocate", "if (first :: rest).any (fun t => bo ≠ t.bo)", "if rest.any (fun t => bo ≠ t.bo)", "byte order of the kernel not checked", C, []),
("M845", F, "coreRelocate", "groupLoop g (compute first) (first :: rest) (order groups) result", "groupLoop g (compute first) rest (order groups) result", "kernel itself not searched", C, []),
("M846", F, "coreRelocate", "groupLoop g (compute first) (first :: rest) (order groups) result", "groupLoop g (compute (rest.headD first)) (first :: rest) (order groups) result", "type IDs resolved in the second target", C, []),
("M847", F, "targetsOf", "| some t => .ok ([t] ++ extra)", "| some t => .ok (extra ++ [t])", "override last: type IDs resolved in an extra target", C, []),
("M848", F, "targetsOf", "| .ok ts => .ok (kernel :: ts ++ extra)", "| .ok ts => .ok (kernel :: ts)", "extra targets forgotten", C, []),
("M849", F, "targetsOf", "| .ok ts => .ok (kernel :: ts ++ extra)", "| .ok ts => .ok (ts ++ kernel :: extra)", "modules before the kernel", C, []),
("M850", F, "loadModules", "    | .error e => .error e\n    | .ok t => match", "    | .error _ => loadModules c ms\n    | .ok t => match", "unreadable modules skipped", C, []),
("M851", F, "applyFixups", "        | .ok js => .ok (⟨j, if f.poison then none else some r⟩ :: js)", "        | .ok js => .ok (⟨j, none⟩ :: js)", "relocation metadata dropped", C, []),
("M852", F, "applyFixups", "      match apply f i.ins with\n      | .error e => .error e", "      match apply f i.ins with\n      | .error _ => (applyFixups is fs).map (i :: ·)", "instructions that don't match are left alone", C, []),
("M853", F, "applyFixups", "      match applyFixups is fs with\n      | .error e => .error e\n      | .ok js => .ok (i :: js)", "      match applyFixups is (fs.drop 1) with\n      | .error e => .error e\n      | .ok js => .ok (i :: js)", "fix-ups run ahead of the instructions", C, []),
("M854", F, "applyRelocations", "coreRelocate g compute order relos targets (bo.getD native) b", "coreRelocate g compute order relos targets native b", "byte order of the ELF ignored", C, []),
("M855", F, "applyRelocations", "if relos.length = 0 then .ok (insns, b)", "if relos.length ≤ 1 then .ok (insns, b)", "a single relocation is ignored", C, []),
]
