F="Model/MapCreate"
C="C82"
M=[
("M515",F,"newMapWithOptions","else (s.close m.fd, .error .incompatible)","else (s, .error .incompatible)","pinned map not closed if incompatible",C,[]),
("M516",F,"newMapWithOptions","          if (compatible env.cpus sp.one.m ⟨m.attr.type, m.attr.keySize, m.attr.valueSize, m.attr.maxEntries, m.attr.flags⟩).1 then (s, .ok m)","          if m.attr.type = sp.one.m.type then (s, .ok m)","only the type is compared",C,[]),
("M517",F,"createNew","(r.1.close t.fd, r.2)","(r.1, r.2)","template not closed",C,[]),
("M518",F,"createNew","createOuter env sp path (some t.fd) s","createOuter env sp path none s","template not used",C,[]),
("M519",F,"pin","if env.pin ∨ (s.files path).isSome then","if env.pin then","pin replaces an existing file",C,[]),
("M520",F,"pin","upd s.files path (s.fds m.fd) }, .ok { m with path := some path })","upd s.files path (s.fds m.fd) }, .ok m)","pinned path not recorded",C,[]),
("M521",F,"pinNew","(s.close m.fd, .error e)","(s, .error e)","map not closed if it can't be pinned",C,[]),
("M522",F,"createCalls","      | none => some false\n      | some _ => none\n    else none","      | none => none\n      | some _ => none\n    else none","no retry without BTF",C,[]),
("M523",F,"createWith","| none => (s.closeHandle h, .error .sys)","| none => (s, .error .sys)","BTF handle leaks on error",C,[]),
("M524",F,"createWith","| none => ((s'.close s.nextFd).closeHandle h, .error .cpus)","| none => (s'.closeHandle h, .error .cpus)","new map leaks if it can't be wrapped",C,[]),
("M525",F,"createWith","| some m => (s'.closeHandle h, .ok m)","| some m => (s', .ok m)","BTF handle leaks on success",C,[]),
("M526",F,"newMapFromFD","if env.info then (s.close fd, .error .sys)","if env.info then (s, .error .sys)","descriptor leaks if info fails",C,[]),
("M527",F,"loadPinned","if ob.isMap = false then (s'.close s.nextFd, .error .notMap)","if ob.isMap = false then (s', .error .notMap)","descriptor leaks if a program is pinned there",C,[]),
("M528",F,"loadPinned","          if ob.isMap = false then (s'.close s.nextFd, .error .notMap)\n          else\n","","type of the pinned object not checked",C,[]),
("M529",F,"finalize","if sp.freeze then","if sp.freeze = false then","wrong maps frozen",C,[]),
("M530",F,"putAll","o.contents ++ [kv] }","[kv] }","older contents lost",C,[]),
("M531",F,"newMap","| (s, false) => (s.close m.fd, .error .sys)","| (s, false) => (s, .error .sys)","map leaks if it can't be filled",C,[]),
("M532",F,"newMap","| (s, false) => (s.close m.fd, .error .sys)","| (s, false) => ((s.close m.fd).close m.fd, .error .sys)","closed twice",C,[]),
("M533",F,"newMapWithOptions","| (s, .notExist) => createNew env sp path (s.race env path)","| (s, .notExist) => createNew env { sp with pinning := .none } path (s.race env path)","new map not pinned",C,[]),
("M534",F,"createNew","createMap env.cpus env.inner i none s","createMap env.cpus env.inner sp.one none s","template from the outer spec",C,[]),
("M535",F,"newMapWithOptions","| (s, .error e) => (s, .error e)\n        | (s, .ok m) =>","| (s, .error _) => createNew env { sp with pinning := .none } path s\n        | (s, .ok m) =>","errors of the pinned map ignored",C,[]),
("M536",F,"loadPinned","| some true => (s'.close s.nextFd, .notExist)","| some true => (s', .notExist)","descriptor leaks on ENOENT",C,[]),
]
