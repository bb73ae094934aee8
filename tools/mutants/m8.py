F = "Model/BtfDedup"
C = "C37: deduplication merges only types that mean the same, and all that do"
M = [
 ("M296", F, "eqMembers", "if a.name ≠ b.name ∨ a.offset ≠ b.offset then", "if a.name ≠ b.name then", "member offsets not compared", C, []),
 ("M297", F, "typesEq", "| .typedef n t _, .typedef n' t' _ => if n ≠ n' then some (.error .notEquivalent, c) else typesEq g k t t' vis c", "| .typedef _ t _, .typedef _ t' _ => typesEq g k t t' vis c", "typedef names not compared", C, []),
 ("M298", F, "cachedEq", "((a, b), match r with | .ok _ => true | .error _ => false) :: c)", "((b, a), match r with | .ok _ => false | .error _ => true) :: c)", "cache stores the negated answer under the swapped key", C, []),
 ("M299", F, "typesEq", "if l ≠ l' then some (.error .notEquivalent, c) else some (.ok (), c)", "some (.ok (), c)", "variable linkage not compared", C, []),
 ("M300", F, "hash", "| .var n t l _ => one [.num 14, .str n, .num l] t", "| .var n t l ts => one [.num 14, .str n, .num l, .num ts.length] t", "hash depends on the number of tags: equal types not merged", C, []),
 ("M301", F, "hashInsert", "some (.ok c, { d with done := (t, c) :: d.done })", "some (.ok c, { d with done := (c, t) :: d.done })", "done map filled the wrong way round", C, []),
 ("M302", F, "hashInsert", "{ d with hashed := d.hashed ++ [(h, t)] }", "{ d with hashed := (h, t) :: d.hashed }", "new candidates go to the front", C, []),
 ("M303", F, "Node.setKid", "| 0 => .funcProto c ps", "| 0 => .funcProto r ps", "return type is not replaced", C, []),
 ("M304", F, "Node.setKid", "| .array x t n => .array (if i = 0 then c else x) (if i = 1 then c else t) n", "| .array x t n => .array (if i = 1 then c else x) (if i = 0 then c else t) n", "element and index type swapped when replacing", C, []),
 ("M305", F, "findCandidate", "| some (.error .notEquivalent, c) => findCandidate k t r { d with eqCache := c }", "| some (.error .notEquivalent, c) => some (.ok none, { d with eqCache := c })", "only the first candidate is compared", C, []),
 ("M306", F, "typesEq", "if n ≠ n' ∨ vs.length ≠ vs'.length then some (.error .notEquivalent, c)\n        else eqVars", "if n ≠ n' then some (.error .notEquivalent, c)\n        else eqVars", "number of variables of a datasec not compared", C, []),
 ("M307", F, "hashComposite", "match c.lookup (r, budget) with", "match c.lookup (r, -1) with", "hash cache ignores the budget", C, []),
 ("M308", F, "typesEq", "| .const t, .const t' => typesEq g k t t' vis c", "| .const t, .const t' => typesEq g k t t' vis c\n      | .const t, _ => typesEq g k t b vis c", "const is skipped when comparing", C, []),
 ("M309", F, "hash", "| .enum n s sg vs =>\n        some (some (H ([.num 6, .str n, .num s.toNat, .num (if sg then 1 else 0)] ++", "| .enum n s sg vs =>\n        some (some (H ([.num 6, .str n, .num s.toNat, .num (if sg then 1 else 0), .num r.toNat] ++", "dummy: does not type check (skipped)", C, []),
]
M = [m for m in M if m[0] != "M309"]
