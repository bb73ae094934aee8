A="Model/BtfFormat"
M=[(f"M{1408+i}",A,d,o,n,b,"C118",[]) for i,(d,o,n,b) in enumerate([
("formatV","depth > width then","depth ≥ width then","one level fewer"),
("formatV","width depth : Nat) (t : R) : Bytes :=\n  head e plus t (g t) ++","width depth : Nat) (t : R) : Bytes :=\n  head e false t (g t) ++","no addresses"),
("formatV",'    | [] => []\n    | x :: l => lit "["','    | [] => lit "[]"\n    | x :: l => lit "["',"empty brackets"),
("formatV","(x :: l) false","(x :: l) true","space after the bracket"),
("formatV","formatV e g plus width (depth + 1) r","formatV e g plus width (depth + 2) r","levels counted twice"),
("formatV","formatV e g plus width (depth + 1) r","formatV e g false width (depth + 1) r","flag lost below"),
("format",'verb ≠ lit "v" ∧ verb ≠ lit "s"','verb ≠ lit "v"',"%s isn't recognized"),
("format",'if verb = lit "s" then head','if verb = lit "v" then head',"verbs swapped"),
("format","(width.getD 0)","(width.getD 1)","another default width"),
("format","(width.getD 0) 0 t","(width.getD 0) 1 t","depth starts at one"),
("head","n.name ≠ []","n.name = []","names only of those without"),
("head","e.quote n.name","n.name","names not quoted"),
("items","decide (s.getLast? ≠ some 61#8)","true","space after the equal sign"),
("items","decide (s ≠ []) && ","","space after an empty string"),
("items","f t ++ items f l true","f t ++ items f l false","no space after a type"),
("items","| .other s => s ++ items f l true","| .other s => s ++ items f l wantSpace","no space after a value"),
("memberNamesFrom","if i ≥ max then","if i > max then","one name too many"),
("memberNamesFrom",'[lit "..."]','[]',"no dots"),
("memberNamesFrom","if m.name = [] then","if m.name ≠ [] then","indices instead of names"),
("memberNamesFrom",'[lit "..."]','lit "..." :: memberNamesFrom max (i + 1) ms',"dots for every further member"),
("memberNames","then 5 else max) 0","then 4 else max) 0","other default"),
("memberNames","else max) 0 members","else max) 1 members","indices from one"),
("sprintRest",'lit " " ++ s','s',"no separators"),
("extra",'[.str (lit "index="), .typ i, .str (lit "type="), .typ t,','[.str (lit "index="), .typ t, .str (lit "type="), .typ i,',"index and element swapped"),
("extra",'.str (lit "return="), .typ ret]','.str (lit "return=")]',"return type left out"),
("extra",'(size * 8#32).toNat','size.toNat',"float in bytes"),
("extra",'.str (lit "proto="), .typ t]','.str (lit "proto=")]',"prototype left out"),
("extra",'.str (lit "value="), .str v, .str (lit "index=")','.str (lit "value="), .other v, .str (lit "index=")',"space after an empty value"),
])]
