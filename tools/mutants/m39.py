F = "Model/Bindings"
C = "C102"
M = [
 ("M985", F, "identStep", 'let r := if prev.isNone then upper r else r', 'let r := r', "fields aren't exported", C, []),
 ("M986", F, "identStep", '    | none => (none, none)\n', '    | none => (some r, some r)\n', "leading underscores are kept: fields aren't exported", C, []),
 ("M987", F, "selectType", '  | .array u => selectType u', '  | .array _ => none', "arrays of structs as variables aren't declared", C, []),
 ("M988", F, "selectType", '  | .comp _ _ => some t', '  | .comp i n => some (.comp i n)', "the struct is declared instead of its typedef", C, []),
 ("M989", F, "addType", '    let t := qualified t\n', '', "const structs aren't declared", C, []),
 ("M990", F, "addType", 'if typeName t = [] then types\n    else ', '', "anonymous types are declared under the name of the stem", C, []),
 ("M991", F, "addType", 'else if types.any (fun e => typeName e = typeName t) then types', 'else if False then types', "types used twice are declared twice", C, []),
 ("M992", F, "collectMapTypes", 'addNamed (addNamed ts m.key) m.value', 'addNamed ts m.value', "types of keys aren't declared", C, []),
 ("M993", F, "collectGlobalTypes", 'sortBy le typeName (collectVariableTypes (collectMapTypes [] maps) vars)', 'collectVariableTypes (collectMapTypes [] maps) vars', "random order of declarations", C, []),
 ("M994", F, "sortTypes", 'if p.2 = n then none else ', '', "two types of one name aren't noticed", C, []),
 ("M995", F, "sortTypes", '(acc.take i ++ (t, n) :: acc.drop i)', '(acc ++ [(t, n)])', "random order of declarations in the output", C, []),
 ("M996", F, "sortTypes", '(acc.take i ++ (t, n) :: acc.drop i)', '(acc.take i ++ (t, n) :: acc.drop (i+1))', "inserting overwrites a type", C, []),
 ("M997", F, "generate", 'let progs := (sortBy le id progs).map', 'let progs := progs.map', "programs in random order", C, []),
 ("M998", F, "generate", 'vars := vars\n', 'vars := progs\n', "variables aren't part of the objects", C, []),
 ("M999", F, "generate", 'closeMaps := maps.map (·.1)', 'closeMaps := progs.map (·.1)', "maps stay open", C, []),
 ("M1000", F, "generate", '(fun p => (stem ++ "Map".toList ++ p.1, p.2)) ++', '(fun p => (stem ++ "Map".toList ++ p.1, p.1)) ++', "the constant of a map holds the Go name", C, []),
 ("M1001", F, "generate", '(fun p => (stem ++ "Prog".toList ++ p.1, p.2))', '(fun p => (stem ++ "Map".toList ++ p.1, p.2))', "constants of maps and programs clash", C, []),
 ("M1002", F, "generate", 'progs.map (fun p => (stem ++ "Prog".toList ++ p.1, p.2)) ++\n', '[] ++\n', "no constants for programs", C, []),
 ("M1003", F, "fixedNames", 'stem ++ "Objects".toList, ', 'stem ++ "Maps".toList, ', "two structs of one name", C, []),
 ("M1004", F, "loadObjectsName", '(toUpperFirst stem ++ "Objects".toList)', '(toUpperFirst stem)', "two functions of one name", C, []),
 ("M1005", F, "mapNames", "n.head? ≠ some '.'", "n.head? ≠ some '_'", "fields for data sections", C, []),
 ("M1006", F, "typeNames", 'if m.any (fun p => p.1 = t) then m else ', '', "a type asked for twice is an error", C, []),
 ("M1007", F, "closeHelper", '    if err x then ([x], true)\n    else (', '    if err x then ([], true)\n    else (', "the failing object isn't even tried", C, []),
 ("M1008", F, "closeObjects", '(c ++ (closeHelper err (o.closeMaps.map .map)).1,', '((closeHelper err (o.closeMaps.map .map)).1,', "programs stay open", C, []),
 ("M1009", F, "typeNames", 'stem ++ identifier (typeName t)', 'identifier (typeName t)', "types declared without the stem", C, []),
]
