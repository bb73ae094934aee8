A="Model/VerifierText"
M=[
("M1287",A,"context","if 2 ≤ n ∧ includePreviousLine","if 3 ≤ n ∧ includePreviousLine","the previous line isn't shown if it is the first","C113",[]),
("M1288",A,"context","includePreviousLine (l.getLastD []) = true","includePreviousLine (l.headD []) = true","looks at the first line instead of the last","C113",[]),
("M1289",A,"joined","lit \": \" ++ trimSpace l ++ joined r","lit \": \" ++ l ++ joined r","lines aren't trimmed","C113",[]),
("M1290",A,"note","if 0 < n then","if 1 < n then","one omitted line isn't mentioned","C113",[]),
("M1291",A,"errorText","(e.log.length - (context log).length)","(log.length - (context log).length)","statistics don't count as omitted","C113",[]),
("M1292",A,"errorText","if log.length = 0 then head\n  else ","","a log of statistics only is noted","C113",[]),
("M1293",A,"errorText","let log := withoutStats e.log","let log := e.log","statistics are shown","C113",[]),
("M1294",A,"count","if n > len then len else n","n","the width isn't clamped","C113",[]),
("M1295",A,"count","| none => len","| none => 10","ten lines without width","C113",[]),
("M1296",A,"withFlag","e.log.drop (e.log.length - n)","e.log.drop n","%-Nv skips N lines","C113",[]),
("M1297",A,"withFlag","if minus then head ++ note (lit \"\\n\\t\") omitted ++ indented","if minus then head ++ indented","%-Nv doesn't say what is missing","C113",[]),
("M1298",A,"withFlag","(e.log.take n) ++ note (lit \"\\n\\t\") omitted","(e.log.take n) ++ note (lit \"\\n\\t\") e.log.length","all lines are said to be missing","C113",[]),
("M1299",A,"format","if width.isSome then lit \"%!v(BADWIDTH)\" else errorText e","errorText e","a width without flag is accepted","C113",[]),
("M1300",A,"format","else if plus ∧ minus then lit \"%!v(BADFLAG)\"\n    ","","both flags are accepted","C113",[]),
("M1301",A,"itoa","itoa (n / 10) ++ [BitVec.ofNat 8 (48 + n % 10)]","[BitVec.ofNat 8 (48 + n % 10)] ++ itoa (n / 10)","digits reversed","C113",[]),
("M1302",A,"indented","lit \"\\n\\t\" ++ l ++ indented r","lit \"\\n\\t\" ++ trimSpace l ++ indented r","indentation of lines is lost","C113",[]),
("M1303","Model/ProgLoad","isSpaceGo","b = 12#8 || b = 13#8","b = 13#8","form feeds aren't trimmed","C113",[]),
]
