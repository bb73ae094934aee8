F = "Model/Args"
C = "C104"
M = [
 ("M1035", F, "trimSpace", "(((s.dropWhile isSpace).reverse).dropWhile isSpace).reverse", "s.dropWhile isSpace", "only white space in front is dropped", C, []),
 ("M1036", F, "splitLoop", "if delim ≠ ' ' then none\n    else ", "", "an unfinished quote is accepted", C, []),
 ("M1037", F, "splitLoop", "    else if escaped then none\n", "", "an unfinished escape is accepted", C, []),
 ("M1038", F, "splitLoop", "some (if cur ≠ [] then [cur] else [])", "some [cur]", "an empty word at the end", C, []),
 ("M1039", F, "splitLoop", "some (if cur ≠ [] then [cur] else [])", "some []", "the last word is lost", C, []),
 ("M1040", F, "splitLoop", "if escaped then splitLoop (cur ++ [r]) false delim s", "if escaped then splitLoop (cur ++ ['\\\\', r]) false delim s", "backslashes stay", C, []),
 ("M1041", F, "splitLoop", "if cur ≠ [] ∨ delim ≠ ' ' then", "if cur ≠ [] then", "empty words in quotes are lost", C, []),
 ("M1042", F, "splitLoop", "if cur ≠ [] ∨ delim ≠ ' ' then", "if True then", "two blanks make an empty word", C, []),
 ("M1043", F, "splitLoop", "(splitLoop [] false ' ' s).map (cur :: ·)", "(splitLoop cur false ' ' s).map (cur :: ·)", "the builder isn't reset", C, []),
 ("M1044", F, "splitLoop", "(splitLoop [] false ' ' s).map (cur :: ·)", "(splitLoop [] false delim s).map (cur :: ·)", "the quote isn't closed", C, []),
 ("M1045", F, "splitLoop", "if delim = ' ' then splitLoop cur false r s\n", "if delim = ' ' then splitLoop [] false r s\n", "what precedes a quote is lost", C, []),
 ("M1046", F, "splitLoop", "      else splitLoop (cur ++ [r]) false delim s\n    else", "      else splitLoop cur false delim s\n    else", "blanks within quotes are lost", C, []),
 ("M1047", F, "splitCFlags", "then ([], as)", "then ([], a :: as)", "-- is given to the compiler", C, []),
 ("M1048", F, "setType", "if n = v then none else ", "", "types given twice", C, []),
 ("M1049", F, "setType", "(ct.take i ++ v :: ct.drop i)", "(ct ++ [v])", "the list isn't sorted, so that duplicates aren't found", C, []),
 ("M1050", F, "validType", "v ≠ [] && ", "", "an empty name of a type", C, []),
 ("M1051", F, "validType", " || c = '_'", "", "names with underscores are refused", C, []),
]
