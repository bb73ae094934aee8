M = [
("M246","Model/Linker","linkLoop","if linked.contains ref then linkLoop progs n pending linked insns\n    else match","if false then linkLoop progs n pending linked insns\n    else match","functions appended again for each caller","C11",[]),
("M247","Model/Linker","linkLoop","(pending ++ functionReferences p) (ref :: linked) (insns ++ p)","pending (ref :: linked) (insns ++ p)","references of linked functions not followed","C11",[]),
("M248","Model/Linker","linkLoop","(ref :: linked) (insns ++ p)","(ref :: linked) (p ++ insns)","callee placed before the root","C11",[]),
("M249","Model/Linker","isCall","&& i.ins.isFunctionReference","&& i.ins.isFunctionCall","function pointer loads not linked","C11",[]),
("M250","Model/Linker","flattenPrograms","l.foldl (fun ps e => assignInsns ps e.1 e.2) progs","l.foldl (fun ps e => assignInsns ps e.1 e.2) []","programs lost","C11",[]),
("M251","Model/Linker","assignInsns","if e.1 = name then (e.1, p) else e","(e.1, p)","every program overwritten","C11",[]),
("M252","Model/Linker","functionReferences","if isCall i then (if rest.contains i.ref then rest else insertSorted i.ref rest) else rest","if isCall i then insertSorted i.ref rest else rest","duplicate references kept","C11",[]),
("M253","Model/Linker","flattenInstructions","if functionReferences p = [] then some p","if functionReferences p ≠ [] then some p","inverted early exit","C11",[]),
("M254","Model/LinkerFixups","untypedOne","if addr m.name = 0 && !m.weak then none","if addr m.name = 0 then none","weak symbols required","C61",[]),
("M255","Model/LinkerFixups","untypedOne","if addr m.name = 0 && !m.weak then none","if !m.weak then none","strong symbols always missing","C61",[]),
("M256","Model/LinkerFixups","untypedNames","if m.isVoid && !(untypedNames r)","if !(untypedNames r)","typed symbols looked up in kallsyms","C61",[]),
("M257","Model/LinkerFixups","applyUntyped","| some e => (some (.lookup e), cache', l)","| some _ => (none, cache', l)","ambiguous symbols ignored","C61",[]),
("M258","Model/LinkerFixups","associateBTFID","(BitVec.ofNat 64 fd <<< 32)","(BitVec.ofNat 64 fd <<< 16)","module fd in the wrong half","C61",[]),
("M259","Model/LinkerFixups","associateBTFID","src := Ins.PseudoBtfId, cons","cons","source register not set","C61",[]),
("M260","Model/LinkerFixups","typedOne","(m.varName, (id, module.getD 0)) :: s.symbols","(m.name, (id, module.getD 0)) :: s.symbols","cached under the wrong name","C61",[]),
("M261","Model/LinkerFixups","typedOne","| .notFound => if m.weak then .ok ({ s with calls := s.calls + 1 }, i)","| .notFound => if !m.weak then .ok ({ s with calls := s.calls + 1 }, i)","inverted weak check","C61",[]),
("M262","Model/LinkerFixups","applyTyped","(.error e, ⟨s.acquired, s.modules⟩)","(.error e, ⟨s.acquired, []⟩)","handles not closed on error","C61",[]),
("M263","Model/LinkerFixups","addHandle","some (hs ++ [h], hs.length + 1)","some (hs ++ [h], hs.length)","index off by one","C62",[]),
("M264","Model/LinkerFixups","fdArray","0 :: hs","hs","vmlinux slot missing","C62",[]),
("M265","Model/LinkerFixups","setKfunc","off := BitVec.ofNat 16 idx","off := 0#16","index dropped","C62",[]),
("M266","Model/LinkerFixups","kfuncStep","if !compat then .failed .incompatible s\n          else match","if false then .failed .incompatible s\n          else match","incompatible prototypes accepted","C62",[]),
("M267","Model/LinkerFixups","kfuncStep","else .failed .notFound s","else s.advance","missing strong kfunc ignored","C62",[]),
("M268","Model/LinkerFixups","zeroLoad","cons := 0#64, src := 0#8","cons := 0#64","pseudo source register kept","C62",[]),
("M269","Model/LinkerFixups","kfuncCallPoisonBase","0xdedc0de#32","0xdedc0df#32","other poison value","C62",[]),
("M270","Model/LinkerFixups","fixupKfuncs","| .failed e s => some (.error e, ⟨s.acquired, s.handles⟩)","| .failed e s => some (.error e, ⟨s.acquired, []⟩)","handles leak on error","C62",[]),
("M271","Model/LinkerFixups","firstKfunc","l.findIdx? (fun i => i.kfunc.isSome)","(l.findIdx? (fun i => i.kfunc.isSome)).map (· + 1)","first kfunc skipped","C62",[]),
("M272","Model/LinkerFixups","kconfigOne","if m.map ≠ spec then .error .multipleKconfig\n    else if","if","second .kconfig map accepted","C63",[]),
("M273","Model/LinkerFixups","kconfigOne","cons := m.offset.setWidth 64 <<< 32","cons := m.offset.setWidth 64","offset in the wrong half","C63",[]),
("M274","Model/LinkerFixups","kconfigOne","{ i with kconfig := none, p := { i.p with ref := \"\", map := some fd, ins := ins } }","{ i with kconfig := none, p := { i.p with map := some fd, ins := ins } }","reference kept","C63",[]),
("M275","Model/LinkerFixups","resolveKconfig","| .error e => (.error e, ([fd], [fd]))","| .error e => (.error e, ([fd], []))","map leaks on error","C63",[]),
("M276","Model/LinkerFixups","fixupProbeRead","= 112#32 then { i with cons := 4#64 }","= 112#32 then { i with cons := 45#64 }","string helper used for plain reads","C64",[]),
("M277","Model/LinkerFixups","fixupProbeRead","if !i.isBuiltinCall then i\n  else if haveProbe","if haveProbe","constants of other instructions changed","C64",[]),
("M278","Model/LinkerFixups","fixupAndValidate","(i.p.ref != \"\" || i.kconfig.isSome)","(i.p.ref != \"\")","unresolved .kconfig reference accepted","C64",[]),
("M279","Model/LinkerFixups","fixupAndValidate","&& i.p.map.isNone then .error","then .error","satisfied references rejected","C64",[]),
("M280","Model/Collection","loadMap","if f s.ops then (none, s.tick.closeObj id)","if f s.ops then (none, s.tick)","map leaks when finalize fails","C49",[]),
("M281","Model/Collection","loadMap","if m.replaced then (some id, s.addMap name id)","if m.replaced then (some id, s)","clone of replacement not recorded","C49",[]),
("M282","Model/Collection","closeRest","s.maps.map (·.2) ++ s.progs.map (·.2) ++ s.closed","s.maps.map (·.2) ++ s.closed","programs not closed","C49",[]),
("M283","Model/Collection","release","s.progs.filter (fun e => !progs.contains e.1)","s.progs","assigned programs closed","C49",[]),
("M284","Model/Collection","release","maps := s.maps.filter (fun e => !maps.contains e.1)","maps := s.maps.filter (fun e => maps.contains e.1)","inverted filter","C49",[]),
("M285","Model/Collection","loadAndAssign","if badProgArray S s (namesOf .map fields) then (none, closeRest s)","if badProgArray S s (namesOf .map fields) then (none, closeRest (release s (namesOf .map fields) (namesOf .prog fields)))","objects released before the check","C49",[]),
("M286","Model/Collection","assignFields","if done.any (fun d => d.kind = fl.kind && d.name = fl.name) then (none, s)","if done.any (fun d => d.kind = fl.kind && d.name = fl.name && fl.ok = false) then (none, s)","same object assigned twice","C49",[]),
("M287","Model/Collection","loadProgram","(some id, s.addProg name id)","(some id, s.addMap name id)","program stored as map","C49",[]),
("M288","Model/Collection","populateOne","if m.kind = .scalar then (true, s)\n    else","if m.kind ≠ .ofProgs then (true, s)\n    else","map of maps not populated","C50",[]),
("M289","Model/Collection","populateOne","(true, s.tick.fill id c m.constant)","(true, s.tick.fill id c false)","constant deferred maps not frozen","C50",[]),
("M290","Model/Collection","loadMap","s.tick.fill id (plain m.contents) m.constant","s.tick.fill id (plain m.contents) true","all maps frozen","C50",[]),
("M291","Model/Collection","loadMap","else if m.kind = .scalar then","else if m.kind ≠ .scalar then","wrong maps finalized early","C50",[]),
("M292","Model/Collection","resolve","(match loadMap S f s n with | (o, s) => (o.map Written.map, s))","(match loadMap S f s n with | (o, s) => (o.map Written.prog, s))","map stored as program","C50",[]),
("M293","Model/Collection","loadAllProgs","if p.unspecified then loadAllProgs S f s r","if !p.unspecified then loadAllProgs S f s r","typed programs skipped","C50",[]),
("M294","Model/Collection","badProgArray","!assigned.contains e.1 && m.contents != []","m.contents != []","assigned program arrays rejected","C49",[]),
("M295","Model/Collection","badProgArray","m.kind = .ofProgs && !assigned","m.kind = .ofMaps && !assigned","wrong kind checked","C49",[]),
]
