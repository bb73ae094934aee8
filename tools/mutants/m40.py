F = "Model/MakeDeps"
C = "C103"
M = [
 ("M1010", F, "splitLines", "if cur = [] then [] else [cur]\n  | cur, c :: s => if c = '\\n'", "[]\n  | cur, c :: s => if c = '\\n'", "an unterminated last line is lost", C, []),
 ("M1011", F, "fields", "(if cur = [] then fields [] s else cur :: fields [] s)", "(cur :: fields [] s)", "empty prerequisites between blanks", C, []),
 ("M1012", F, "fields", "  | cur, [] => if cur = [] then [] else [cur]\n  | cur, c :: s => if isSpace c", "  | _, [] => []\n  | cur, c :: s => if isSpace c", "the last prerequisite is lost", C, []),
 ("M1013", F, "isSpace", "c = ' ' || c = '\\t' || ", "c = ' ' || ", "tabs don't separate", C, []),
 ("M1014", F, "splitColon", "(fun p => (c :: p.1, p.2))", "(fun p => (p.1, p.2))", "the target is lost", C, []),
 ("M1015", F, "cleanAbs", "acc.dropLast else", "acc else", ".. is ignored", C, []),
 ("M1016", F, "absPath", "if p.head? = some '/' then p else ", "", "absolute paths are taken as relative", C, []),
 ("M1017", F, "absPath", "(base ++ '/' :: p)", "(base ++ p)", "joined without a slash", C, []),
 ("M1018", F, "relComponents", "List.replicate (bs.length + 1) ['.', '.'] ++ t :: ts", "List.replicate bs.length ['.', '.'] ++ t :: ts", "one level too few", C, []),
 ("M1019", F, "relComponents", "  | bs, ts => List.replicate bs.length ['.', '.'] ++ ts", "  | _, ts => ts", "files above the base are not found", C, []),
 ("M1020", F, "relPath", "if r = [] then ['.'] else joinSlash r", "joinSlash r", "the base itself has an empty name", C, []),
 ("M1021", F, "relPath", "relComponents (cleanAbs base) (cleanAbs p)", "relComponents (cleanAbs p) (cleanAbs base)", "arguments of Rel swapped", C, []),
 ("M1022", F, "parseLoop", "parseLoop limit base (line ++ buf.dropLast) rest", "parseLoop limit base (line ++ buf) rest", "the backslash becomes part of a name", C, []),
 ("M1023", F, "parseLoop", "parseLoop limit base (line ++ buf.dropLast) rest", "parseLoop limit base buf.dropLast rest", "what precedes a continuation is lost", C, []),
 ("M1024", F, "parseLoop", "(parseLoop limit base [] rest).map", "(parseLoop limit base line rest).map", "the line isn't reset", C, []),
 ("M1025", F, "parseLoop", "if line = [] then parseLoop limit base [] rest\n      else\n", "", "empty lines are errors", C, []),
 ("M1026", F, "parseLoop", "⟨absPath base f, (fields [] ps).map (absPath base)⟩", "⟨absPath base f, fields [] ps⟩", "prerequisites stay relative to the compiler's directory", C, []),
 ("M1027", F, "parseDependencies", "  | some [] => none\n  | r => r", "  | r => r", "an empty file panics later", C, []),
 ("M1028", F, "joinLines", '" \\\\\\n ".toList', '" \\\\\\n".toList', "no blank after a continuation", C, []),
 ("M1029", F, "adjustDependencies", 'relPath base r.file ++ ":\\n\\n".toList', 'relPath base r.file ++ "\\n\\n".toList', "targets without prerequisites lose their colon", C, []),
 ("M1031", F, "depFile", '{ r with file := goFile } :: rs', 'r :: rs', "make thinks the object is made, not the Go file", C, []),
 ("M1032", F, "depFile", '{ r with file := goFile } :: rs', '{ r with file := goFile } :: []', "phony targets are lost: removing a header breaks the build", C, []),
 ("M1033", F, "adjustDependencies", '++ joinLines (r.prereqs.map (relPath base)) ++ "\\n\\n".toList)', '++ joinLines (r.prereqs.map (relPath base)))', "rules run into each other", C, []),
 ("M1034", F, "dropCR", "if l.getLast? = some '\\r' then l.dropLast else l", "l", "continuation lines of Windows aren't seen", C, []),
]
