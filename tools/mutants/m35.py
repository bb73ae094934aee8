F = "Model/Rlimit"
C = "C98"
M = [
("M907", F, "detect", "let zero : Lim := ⟨0, old.max⟩", "let zero : Lim := ⟨0, 0⟩", "hard limit lowered, which can't be undone", C, []),
("M908", F, "detect", "    let old := p.lim\n    match mapCreate", "    match mapCreate", "restores the limit read first", C, []),
("M909", F, "detect", "| .ok () => (.supported, { p3 with fds := p3.fds - 1 })", "| .ok () => (.supported, p3)", "map not closed", C, []),
("M910", F, "detect", "| .error .token => (.supported, p3)", "| .error .token => (.unsupported, p3)", "token taken for missing accounting", C, []),
("M911", F, "detect", "| .error .eperm => (.unsupported, p3)", "| .error .eperm => (.supported, p3)", "EPERM means supported", C, []),
("M912", F, "detect", "match setLimit kn zero p with", "match setLimit kn p.lim p with", "limit isn't lowered, old kernels pass", C, []),
("M913", F, "removeMemlock", "| .failed => (false, p)", "| .failed => (true, p)", "failures ignored", C, []),
("M914", F, "removeMemlock", "setLimit kn ⟨infinity, infinity⟩ p", "setLimit kn ⟨infinity, p.lim.max⟩ p", "only the soft limit raised", C, []),
("M915", F, "removeMemlock", "    | none => (false, p)\n    | some p => (true, p)", "    | none => (true, p)\n    | some p => (true, p)", "error of prlimit dropped", C, []),
]
