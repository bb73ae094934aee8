import Verif.Model.BtfTraversal
/-!
# Model of `btf/dedup.go`

Types are pointers `R` into a graph which `deduplicate` changes in place. Functions that recurse over
the graph take fuel; `none` = the fuel ran out. `maphash` with a random seed is an arbitrary function
`H` of the sequence of items written to the hash.
-/
namespace Ebpf.Btf
variable {R : Type}

/-- `errNotEquivalent`, or the error for an unknown type. -/
inductive DedupErr | notEquivalent | unsupported
deriving DecidableEq

/-- dedup.go:29 `eqCache`: newest entry first. -/
abbrev EqCache (R : Type) := List ((R × R) × Bool)

/-- A verdict of `typesEquivalent` and the new cache. -/
abbrev EqVerdict (R : Type) := Option (Except DedupErr Unit × EqCache R)

/-- dedup.go:504-514 etc.: compare types pairwise, stop at the first error. -/
def eqPairs (f : R → R → EqCache R → EqVerdict R) : List (R × R) → EqCache R → EqVerdict R
  | [], c => some (.ok (), c)
  | (a, b) :: ps, c =>
    match f a b c with
    | some (.ok (), c) => eqPairs f ps c
    | r => r

/-- dedup.go:625-634: the loop over the members of two composites (of the same length). -/
def eqMembers (f : R → R → EqCache R → EqVerdict R) : List (Member R × Member R) → EqCache R → EqVerdict R
  | [], c => some (.ok (), c)
  | (a, b) :: ps, c =>
    if a.name ≠ b.name ∨ a.offset ≠ b.offset then some (.error .notEquivalent, c)
    else match f a.type b.type c with
      | some (.ok (), c) => eqMembers f ps c
      | r => r

/-- dedup.go:509-516: the loop over the parameters of two prototypes. -/
def eqParams (f : R → R → EqCache R → EqVerdict R) : List (FuncParam R × FuncParam R) → EqCache R → EqVerdict R
  | [], c => some (.ok (), c)
  | (a, b) :: ps, c =>
    if a.name ≠ b.name then some (.error .notEquivalent, c)
    else match f a.type b.type c with
      | some (.ok (), c) => eqParams f ps c
      | r => r

/-- dedup.go:543-552: the loop over the variables of two sections. -/
def eqVars (f : R → R → EqCache R → EqVerdict R) : List (VarSecinfo R × VarSecinfo R) → EqCache R → EqVerdict R
  | [], c => some (.ok (), c)
  | (a, b) :: ps, c =>
    if a.offset ≠ b.offset ∨ a.size ≠ b.size then some (.error .notEquivalent, c)
    else match f a.type b.type c with
      | some (.ok (), c) => eqVars f ps c
      | r => r

/-- dedup.go:592-637 `compositeEquivalent`; `f` is `typesEquivalent` with the current `visited`. -/
def compositeEq (f : R → R → EqCache R → EqVerdict R) (a b : Node R) (c : EqCache R) : EqVerdict R :=
  match a, b with
  | .struct n s ms _, .struct n' s' ms' _ =>
    if n ≠ n' ∨ s ≠ s' ∨ ms.length ≠ ms'.length then some (.error .notEquivalent, c) else eqMembers f (ms.zip ms') c
  | .union n s ms _, .union n' s' ms' _ =>
    if n ≠ n' ∨ s ≠ s' ∨ ms.length ≠ ms'.length then some (.error .notEquivalent, c) else eqMembers f (ms.zip ms') c
  | _, _ => some (.error .notEquivalent, c)

variable [DecidableEq R]

/-- dedup.go:448-462: composites go through the cache. -/
def cachedEq (f : R → R → EqCache R → EqVerdict R) (g : Graph R) (a b : R) (c : EqCache R) : EqVerdict R :=
  match c.lookup (a, b) with
  | some true => some (.ok (), c)
  | some false => some (.error .notEquivalent, c)
  | none =>
    match compositeEq f (g a) (g b) c with
    | none => none
    | some (r, c) => some (r, ((a, b), match r with | .ok _ => true | .error _ => false) :: c)

/-- dedup.go:349-588 `typesEquivalent`. -/
def typesEq (g : Graph R) : Nat → R → R → List R → EqCache R → EqVerdict R
  | 0, _, _, _, _ => none
  | k + 1, a, b, vis, c =>
    if a = b then some (.ok (), c)
    else match g a, g b with
      | .void, .void => some (.ok (), c)
      | .int n s e, .int n' s' e' => if n ≠ n' ∨ s ≠ s' ∨ e ≠ e' then some (.error .notEquivalent, c) else some (.ok (), c)
      | .enum n _ _ vs, .enum n' _ _ vs' => if n ≠ n' ∨ vs ≠ vs' then some (.error .notEquivalent, c) else some (.ok (), c)
      | .fwd n f, .fwd n' f' => if n ≠ n' ∨ f ≠ f' then some (.error .notEquivalent, c) else some (.ok (), c)
      | .float n s, .float n' s' => if n ≠ n' ∨ s ≠ s' then some (.error .notEquivalent, c) else some (.ok (), c)
      | .array i t n, .array i' t' n' =>
        if n ≠ n' then some (.error .notEquivalent, c) else eqPairs (fun a b => typesEq g k a b vis) [(i, i'), (t, t')] c
      | .ptr t, .ptr t' => if a ∈ vis then some (.ok (), c) else typesEq g k t t' (vis ++ [a]) c
      | .struct .., _ => cachedEq (fun a b => typesEq g k a b vis) g a b c
      | .union .., _ => cachedEq (fun a b => typesEq g k a b vis) g a b c
      | .typedef n t _, .typedef n' t' _ => if n ≠ n' then some (.error .notEquivalent, c) else typesEq g k t t' vis c
      | .volatile t, .volatile t' => typesEq g k t t' vis c
      | .const t, .const t' => typesEq g k t t' vis c
      | .restrict t, .restrict t' => typesEq g k t t' vis c
      | .func n t _ _ _, .func n' t' _ _ _ => if n ≠ n' then some (.error .notEquivalent, c) else typesEq g k t t' vis c
      | .funcProto r ps, .funcProto r' ps' =>
        match typesEq g k r r' vis c with
        | some (.ok (), c) =>
          if ps.length ≠ ps'.length then some (.error .notEquivalent, c)
          else eqParams (fun a b => typesEq g k a b vis) (ps.zip ps') c
        | r => r
      | .var n t l _, .var n' t' l' _ =>
        if n ≠ n' then some (.error .notEquivalent, c)
        else match typesEq g k t t' vis c with
          | some (.ok (), c) => if l ≠ l' then some (.error .notEquivalent, c) else some (.ok (), c)
          | r => r
      | .datasec n _ vs, .datasec n' _ vs' =>
        if n ≠ n' ∨ vs.length ≠ vs'.length then some (.error .notEquivalent, c)
        else eqVars (fun a b => typesEq g k a b vis) (vs.zip vs') c
      | .declTag t v i, .declTag t' v' i' =>
        if v ≠ v' ∨ i ≠ i' then some (.error .notEquivalent, c) else typesEq g k t t' vis c
      | .typeTag t v, .typeTag t' v' => if v ≠ v' then some (.error .notEquivalent, c) else typesEq g k t t' vis c
      | .cycle _, _ => some (.error .unsupported, c)
      | _, _ => some (.error .notEquivalent, c)

/-! ## hashing -/

/-- What is written to a hash: numbers (kinds, sizes, offsets, other hashes) and strings. -/
inductive HItem where
  | num (n : Int)
  | str (s : Bytes)
deriving DecidableEq, Repr

/-- dedup.go:108-112: key and value of `hashCache`. -/
abbrev HCache (R : Type) := List ((R × Int) × Nat)

/-- Result of `hash`: the inner `none` is an error, the outer one means that the fuel ran out. -/
abbrev HResult (R : Type) := Option (Option Nat × HCache R)

/-- Hash a list of types; for each of them `pre` is written first, then its hash. -/
def hashList (h : R → HCache R → HResult R) : List (List HItem × R) → HCache R → Option (Option (List HItem) × HCache R)
  | [], c => some (some [], c)
  | (pre, t) :: r, c =>
    match h t c with
    | none => none
    | some (none, c) => some (none, c)
    | some (some s, c) =>
      match hashList h r c with
      | none => none
      | some (none, c) => some (none, c)
      | some (some l, c) => some (some (pre ++ [.num s] ++ l), c)

/-- Finish a hash. -/
def finish (H : List HItem → Nat) (pre : List HItem) : Option (Option (List HItem) × HCache R) → HResult R
  | none => none
  | some (none, c) => some (none, c)
  | some (some l, c) => some (some (H (pre ++ l)), c)

/-- dedup.go:140-162: the depth budget for the target of a pointer. -/
def ptrBudget (g : Graph R) (t : R) (budget : Int) : Int :=
  let budget := if budget > 0 then budget - 1 else budget
  if budget < 0 then (match g t with | .ptr _ => 2 | _ => 1) else budget

/-- dedup.go:185-224: composites, with the cache. -/
def hashComposite (H : List HItem → Nat) (h : R → HCache R → HResult R) (r : R) (kind : Int) (n : Bytes) (s : BitVec 32)
    (ms : List (Member R)) (budget : Int) (c : HCache R) : HResult R :=
  match c.lookup (r, budget) with
  | some v => some (some v, c)
  | none =>
    match finish H [.num kind, .str n, .num s.toNat, .num ms.length]
        (hashList h (ms.map fun m => ([.str m.name, .num m.offset.toNat], m.type)) c) with
    | some (some v, c) => some (some v, ((r, budget), v) :: c)
    | x => x

/-- dedup.go:118-340 `hash`. The constants are the kinds of btf/btf_types.go:23-45. -/
def hash (g : Graph R) (H : List HItem → Nat) : Nat → R → Int → HCache R → HResult R
  | 0, _, _, _ => none
  | k + 1, r, budget, c =>
    if budget = 0 then some (some 0, c)
    else
      let one (pre : List HItem) (t : R) : HResult R := finish H pre (hashList (fun t => hash g H k t budget) [([], t)] c)
      match g r with
      | .void => some (some (H [.num 0]), c)
      | .int n s e => some (some (H [.num 1, .str n, .num s.toNat, .num e.toNat]), c)
      | .ptr t => finish H [.num 2] (hashList (fun t' => hash g H k t' (ptrBudget g t budget)) [([], t)] c)
      | .array i t n =>
        match hash g H k i budget c with
        | none => none
        | some (none, c) => some (none, c)
        | some (some s, c) =>
          match hash g H k t budget c with
          | none => none
          | some (none, c) => some (none, c)
          | some (some _, c) => some (some (H [.num 3, .num n.toNat, .num s, .num s]), c)
      | .struct n s ms _ => hashComposite H (fun t => hash g H k t budget) r 4 n s ms budget c
      | .union n s ms _ => hashComposite H (fun t => hash g H k t budget) r 5 n s ms budget c
      | .enum n s sg vs =>
        some (some (H ([.num 6, .str n, .num s.toNat, .num (if sg then 1 else 0)] ++
          vs.flatMap fun v => [.str v.name, .num v.value.toNat])), c)
      | .fwd n f => some (some (H [.num 7, .str n, .num f]), c)
      | .typedef n t _ => one [.num 8, .str n] t
      | .volatile t => one [.num 9] t
      | .const t => one [.num 10] t
      | .restrict t => one [.num 11] t
      | .func n t _ _ _ => one [.num 12, .str n] t
      | .funcProto ret ps =>
        let budget := if budget ≥ 0 then budget + 1 else budget
        finish H [.num 13] (hashList (fun t => hash g H k t budget) (ps.map (fun p => ([.str p.name], p.type)) ++ [([], ret)]) c)
      | .var n t l _ => one [.num 14, .str n, .num l] t
      | .datasec n _ vs =>
        finish H [.num 15, .str n] (hashList (fun t => hash g H k t budget)
          (vs.map fun v => ([.num v.offset.toNat, .num v.size.toNat], v.type)) c)
      | .declTag t v i => one [.num 17, .str v, .num i] t
      | .typeTag t v => one [.num 18, .str v] t
      | .float n s => some (some (H [.num 16, .str n, .num s.toNat]), c)
      | .cycle _ => some (none, c)

/-! ## the deduper -/

/-- dedup.go:19-32 `deduper`, together with the graph. `hashed` lists hash and type in the order of
insertion. -/
structure Deduper (R : Type) where
  graph : Graph R
  visited : List R := []
  hashCache : HCache R := []
  done : List (R × R) := []
  hashed : List (Nat × R) := []
  eqCache : EqCache R := []

/-- dedup.go:84-103: look for an equivalent candidate. -/
def findCandidate (k : Nat) (t : R) : List R → Deduper R → Option (Except DedupErr (Option R) × Deduper R)
  | [], d => some (.ok none, d)
  | cand :: r, d =>
    match typesEq d.graph k cand t [] d.eqCache with
    | none => none
    | some (.ok (), c) => some (.ok (some cand), { d with eqCache := c })
    | some (.error .notEquivalent, c) => findCandidate k t r { d with eqCache := c }
    | some (.error e, c) => some (.error e, { d with eqCache := c })

/-- dedup.go:68-108 `hashInsert`: the type to use instead of `t`. -/
def hashInsert (H : List HItem → Nat) (k : Nat) (t : R) (d : Deduper R) : Option (Except DedupErr R × Deduper R) :=
  match d.done.lookup t with
  | some c => some (.ok c, d)
  | none =>
    match hash d.graph H k t (-1) d.hashCache with
    | none => none
    | some (none, hc) => some (.error .unsupported, { d with hashCache := hc })
    | some (some h, hc) =>
      match findCandidate k t ((d.hashed.filter (fun e => e.1 = h)).map (·.2)) { d with hashCache := hc } with
      | none => none
      | some (.error e, d) => some (.error e, d)
      | some (.ok (some c), d) => some (.ok c, { d with done := (t, c) :: d.done })
      | some (.ok none, d) => some (.ok t, { d with hashed := d.hashed ++ [(h, t)] })

/-- The `i`-th type a node refers to, in the order of btf/traversal.go:38-160, is replaced by `c`. -/
def Node.setKid (i : Nat) (c : R) : Node R → Node R
  | .ptr t => .ptr (if i = 0 then c else t)
  | .array x t n => .array (if i = 0 then c else x) (if i = 1 then c else t) n
  | .struct n s ms ts => .struct n s (ms.modify i (fun m => { m with type := c })) ts
  | .union n s ms ts => .union n s (ms.modify i (fun m => { m with type := c })) ts
  | .typedef n t ts => .typedef n (if i = 0 then c else t) ts
  | .volatile t => .volatile (if i = 0 then c else t)
  | .const t => .const (if i = 0 then c else t)
  | .restrict t => .restrict (if i = 0 then c else t)
  | .func n t l ts pts => .func n (if i = 0 then c else t) l ts pts
  | .funcProto r ps =>
    match i with
    | 0 => .funcProto c ps
    | i + 1 => .funcProto r (ps.modify i (fun p => { p with type := c }))
  | .var n t l ts => .var n (if i = 0 then c else t) l ts
  | .datasec n s vs => .datasec n s (vs.modify i (fun v => { v with type := c }))
  | .typeTag t v => .typeTag (if i = 0 then c else t) v
  | n => n

/-- The types a node refers to, in the order of btf/traversal.go:38-160, without tags. -/
def Node.kids : Node R → List R
  | .ptr t => [t]
  | .array i t _ => [i, t]
  | .struct _ _ ms _ => ms.map (·.type)
  | .union _ _ ms _ => ms.map (·.type)
  | .typedef _ t _ => [t]
  | .volatile t => [t]
  | .const t => [t]
  | .restrict t => [t]
  | .func _ t _ _ _ => [t]
  | .funcProto r ps => r :: ps.map (·.type)
  | .var _ t _ _ => [t]
  | .datasec _ _ vs => vs.map (·.type)
  | .typeTag t _ => [t]
  | _ => []

/-- dedup.go:54-60: one iteration of the inner loop, `*c, err = d.hashInsert(*c)`: `kid r i` for the
`i`-th type that `r` refers to, `temp t` for a `declTag` made up by `children`, whose replacement is
dropped. -/
inductive Act (R : Type) where
  | kid (r : R) (i : Nat)
  | temp (t : R)

/-- dedup.go:54-60: execute one assignment. -/
def runAct (H : List HItem → Nat) (k : Nat) (d : Deduper R) : Act R → Option (Except DedupErr Unit × Deduper R)
  | .temp t =>
    match hashInsert H k t d with
    | none => none
    | some (.error e, d) => some (.error e, d)
    | some (.ok _, d) => some (.ok (), d)
  | .kid r i =>
    match (d.graph r).kids[i]? with
    | none => some (.ok (), d)
    | some t =>
      match hashInsert H k t d with
      | none => none
      | some (.error e, d) => some (.error e, d)
      | some (.ok c, d) => some (.ok (), { d with graph := fun x => if x = r then (d.graph r).setKid i c else d.graph x })

/-- dedup.go:53-61: execute the assignments in order. -/
def runActs (H : List HItem → Nat) (k : Nat) : List (Act R) → Deduper R → Option (Except DedupErr Unit × Deduper R)
  | [], d => some (.ok (), d)
  | a :: r, d =>
    match runAct H k d a with
    | none => none
    | some (.error e, d) => some (.error e, d)
    | some (.ok (), d) => runActs H k r d

/-- The assignments for one type: its children in order, where `alloc` gives the address of the `declTag`
that `children` allocates. -/
def actsOf (alloc : R → Bytes → Int → Nat → R) (r : R) : Nat → List (TRef R) → List (Act R)
  | _, [] => []
  | i, .obj _ :: l => .kid r i :: actsOf alloc r (i + 1) l
  | i, .tag p v idx k :: l => .temp (alloc p v idx k) :: actsOf alloc r i l
  | i, .ph _ :: l => actsOf alloc r i l

/-- btf/traversal.go:38-160 `children` as addresses. -/
def childAddrs (alloc : R → Bytes → Int → Nat → R) (g : Graph R) (r : R) : List R :=
  (childrenObj g r).filterMap fun
    | .obj t => some t
    | .tag p v idx k => some (alloc p v idx k)
    | .ph _ => none

/-- dedup.go:45-66 `deduplicate`. The traversal yields a type after it has read the pointers to its
children, and only the pointers in a type that was yielded are changed, so it goes over the graph as
it is when the call begins. -/
def deduplicate (H : List HItem → Nat) (alloc : R → Bytes → Int → Nat → R) (k : Nat) (t : R) (d : Deduper R) :
    Option (Except DedupErr R × Deduper R) :=
  match d.done.lookup t with
  | some c => some (.ok c, d)
  | none =>
    match visit (childAddrs alloc d.graph) k t d.visited with
    | none => none
    | some (out, vis) =>
      match runActs H k (out.flatMap fun r => actsOf alloc r 0 (childrenObj d.graph r)) { d with visited := vis } with
      | none => none
      | some (.error e, d) => some (.error e, d)
      | some (.ok (), d) => hashInsert H k t d

/-- btf/marshal.go:131-173: the part of a sequence of `Builder.Add` calls that concerns deduplication
(marshal.go:145-151): each type is replaced by the result of
`deduplicate`; the first error ends the sequence. -/
def dedupAll (H : List HItem → Nat) (alloc : R → Bytes → Int → Nat → R) (k : Nat) : List R → Deduper R →
    Option (Except DedupErr (List R) × Deduper R)
  | [], d => some (.ok [], d)
  | t :: ts, d =>
    match deduplicate H alloc k t d with
    | none => none
    | some (.error e, d) => some (.error e, d)
    | some (.ok c, d) =>
      match dedupAll H alloc k ts d with
      | none => none
      | some (.error e, d) => some (.error e, d)
      | some (.ok cs, d) => some (.ok (c :: cs), d)

end Ebpf.Btf
