import Verif.Model.SpecCopy
/-! # Specification: what can be reached from a specification, and what writing to an object changes -/
namespace Ebpf.SpecCopy.Spec

/-- The address of an object. -/
def at? {α : Type} (r : Option (Ref α)) : List Nat := (r.map (·.addr)).toList

/-- The objects of a map and its inner maps. -/
def ownMap (l : List MapSpec) : List Nat :=
  l.flatMap fun m => m.addr :: (at? m.contents ++ at? m.key ++ at? m.value ++ at? m.tags ++ at? m.extra)

/-- The objects of a program. -/
def ownProg (p : Option ProgSpec) : List Nat := p.toList.flatMap fun p => p.addr :: at? p.insns

/-- The objects of a variable. -/
def ownVar (v : VarSpec) : List Nat := v.addr :: (at? v.value ++ at? v.typ)

/-- The objects of a Go map of specifications. -/
def ownAll {α : Type} (f : α → List Nat) (m : Option (Ref (List (Bytes × α)))) : List Nat := m.toList.flatMap fun r => r.addr :: r.val.flatMap fun x => f x.2

/-- The objects which make up a specification of a collection. -/
def own (cs : CollSpec) : List Nat := cs.addr :: (ownAll ownMap cs.maps ++ ownAll ownProg cs.progs ++ ownAll ownVar cs.vars ++ at? cs.types)

/-- The values in the contents of maps. -/
def values (cs : CollSpec) : List Nat :=
  cs.maps.toList.flatMap fun r => r.val.flatMap fun x => x.2.flatMap fun m => m.contents.toList.flatMap fun c => c.val.map (·.value.addr)

/-- The targets of programs, and the metadata of their instructions. -/
def targets (cs : CollSpec) : List Nat :=
  cs.progs.toList.flatMap fun r => r.val.flatMap fun x => x.2.toList.flatMap fun p => at? p.target ++ p.insns.toList.flatMap fun i => i.val.flatMap fun i => at? i.md

/-- Everything that can be reached. -/
def reach (cs : CollSpec) : List Nat := own cs ++ values cs ++ targets cs

/-! ## The same but for addresses -/

/-- The same content, or both are nil. -/
def SameRef {α : Type} (a b : Option (Ref α)) : Prop := a.map (·.val) = b.map (·.val)

/-- The same map: all fields and contents are the same, and its InnerMap is nil, itself, or the same as that of the other. -/
inductive SameMap : List MapSpec → List MapSpec → Prop where
  | null : SameMap [] []
  | cons (m m' : MapSpec) (l l' : List MapSpec) : m.fields = m'.fields → SameRef m.contents m'.contents → SameRef m.key m'.key → SameRef m.value m'.value →
      SameRef m.tags m'.tags → SameRef m.extra m'.extra → (m.inner = some m.addr ↔ m'.inner = some m'.addr) → (m.inner = none ↔ m'.inner = none) → SameMap l l' → SameMap (m :: l) (m' :: l')

/-- The same program; the copy of one without instructions has an empty slice of them instead of nil. -/
def SameProg (a b : Option ProgSpec) : Prop :=
  (a = none ∧ b = none) ∨ ∃ p q, a = some p ∧ b = some q ∧ p.fields = q.fields ∧ p.target = q.target ∧
    ∃ r, q.insns = some r ∧ r.val = match p.insns with | none => [] | some i => i.val

/-- The same variable. -/
def SameVar (a b : VarSpec) : Prop := a.fields = b.fields ∧ SameRef a.value b.value ∧ SameRef a.typ b.typ

/-- The same names for the same things. -/
inductive SameEntries {α : Type} (R : α → α → Prop) : List (Bytes × α) → List (Bytes × α) → Prop where
  | nil : SameEntries R [] []
  | cons (k : Bytes) (x y : α) (l l' : List (Bytes × α)) : R x y → SameEntries R l l' → SameEntries R ((k, x) :: l) ((k, y) :: l')

/-- Both Go maps are nil or have the same entries. -/
def SameAll {α : Type} (R : α → α → Prop) (a b : Option (Ref (List (Bytes × α)))) : Prop :=
  (a = none ∧ b = none) ∨ ∃ r s, a = some r ∧ b = some s ∧ SameEntries R r.val s.val

/-- The same specification. -/
structure Same (a b : CollSpec) : Prop where
  maps : SameAll SameMap a.maps b.maps
  progs : SameAll SameProg a.progs b.progs
  vars : SameAll SameVar a.vars b.vars
  types : SameRef a.types b.types
  order : a.order = b.order

/-- Inner maps are where the maps say: the next one, if the map isn't its own inner map; the last is its own or has none. -/
inductive Linked : List MapSpec → Prop where
  | null : Linked []
  | last (m : MapSpec) : m.inner = none ∨ m.inner = some m.addr → Linked [m]
  | next (m m' : MapSpec) (l : List MapSpec) : m.inner = some m'.addr → m.inner ≠ some m.addr → Linked (m' :: l) → Linked (m :: m' :: l)

/-- All maps of the collection are linked like this. -/
def AllLinked (cs : CollSpec) : Prop := ∀ r, cs.maps = some r → ∀ x ∈ r.val, Linked x.2

/-! ## Writing -/

/-- What is written to an object, if it is of that kind; any new content. -/
structure Edit where
  coll : CollSpec → CollSpec
  maps : List (Bytes × List MapSpec) → List (Bytes × List MapSpec)
  progs : List (Bytes × Option ProgSpec) → List (Bytes × Option ProgSpec)
  vars : List (Bytes × VarSpec) → List (Bytes × VarSpec)
  map : MapSpec → MapSpec
  prog : ProgSpec → ProgSpec
  var : VarSpec → VarSpec
  bytes : Bytes → Bytes
  kvs : List KV → List KV
  tags : List Bytes → List Bytes
  insns : List Ins → List Ins

/-- Writing to the object at address `a`, as seen through a pointer. -/
def wref {α : Type} (a : Nat) (f deep : α → α) (r : Option (Ref α)) : Option (Ref α) :=
  r.map fun r => ⟨r.addr, if r.addr = a then f (deep r.val) else deep r.val⟩

/-- The write as seen through the entry of a map's contents. -/
def wkv (a : Nat) (e : Edit) (x : KV) : KV := { x with value := ⟨x.value.addr, if x.value.addr = a then e.bytes x.value.val else x.value.val⟩ }

/-- The write as seen through a map. -/
def wmap (a : Nat) (e : Edit) (m : MapSpec) : MapSpec :=
  let m := { m with contents := wref a e.kvs (List.map (wkv a e)) m.contents, key := wref a e.bytes (fun x => x) m.key, value := wref a e.bytes (fun x => x) m.value,
                    tags := wref a e.tags (fun x => x) m.tags, extra := wref a e.bytes (fun x => x) m.extra }
  if m.addr = a then e.map m else m

/-- The write as seen through an instruction. -/
def wins (a : Nat) (e : Edit) (i : Ins) : Ins := { i with md := wref a e.bytes (fun x => x) i.md }

/-- The write as seen through a program. -/
def wprog (a : Nat) (e : Edit) (p : ProgSpec) : ProgSpec :=
  let p := { p with target := wref a e.bytes (fun x => x) p.target, insns := wref a e.insns (List.map (wins a e)) p.insns }
  if p.addr = a then e.prog p else p

/-- The write as seen through a variable. -/
def wvar (a : Nat) (e : Edit) (v : VarSpec) : VarSpec :=
  let v := { v with value := wref a e.bytes (fun x => x) v.value, typ := wref a e.bytes (fun x => x) v.typ }
  if v.addr = a then e.var v else v

/-- The write as seen through the specification of a collection. -/
def write (a : Nat) (e : Edit) (cs : CollSpec) : CollSpec :=
  let cs := { cs with maps := wref a e.maps (List.map fun x => (x.1, x.2.map (wmap a e))) cs.maps,
                      progs := wref a e.progs (List.map fun x => (x.1, x.2.map (wprog a e))) cs.progs,
                      vars := wref a e.vars (List.map fun x => (x.1, wvar a e x.2)) cs.vars,
                      types := wref a e.bytes (fun x => x) cs.types }
  if cs.addr = a then e.coll cs else cs

/-- A sequence of writes. -/
def writes (l : List (Nat × Edit)) (cs : CollSpec) : CollSpec := l.foldl (fun cs x => write x.1 x.2 cs) cs

end Ebpf.SpecCopy.Spec
