import Verif.Model.TracefsPath
/-! # Specification: directories, and where tracefs is -/
namespace Ebpf.TracefsPath.Spec

/-- The name of a file in a directory: not empty, not "." or "..", and without slashes. -/
def Name (c : Bytes) : Prop := c ≠ [] ∧ c ≠ [0x2e] ∧ c ≠ [0x2e, 0x2e] ∧ (0x2f : Byte) ∉ c

/-- The text of the path from the root through directories with these names. -/
def path (d : List Bytes) : Bytes := if d = [] then [0x2f] else d.flatMap fun c => 0x2f :: c

/-- Going through the components of a path, from the directory `d` to the directory `e`: ".." goes up, but the root is above itself. -/
inductive Walk : List Bytes → List Bytes → List Bytes → Prop where
  | done (d : List Bytes) : Walk d [] d
  | stay (d : List Bytes) (c : Bytes) (cs e : List Bytes) : c = [] ∨ c = [0x2e] → Walk d cs e → Walk d (c :: cs) e
  | up (d : List Bytes) (cs e : List Bytes) : Walk d.dropLast cs e → Walk d ([0x2e, 0x2e] :: cs) e
  | down (d : List Bytes) (c : Bytes) (cs e : List Bytes) : Name c → Walk (d ++ [c]) cs e → Walk d (c :: cs) e

/-- The components `cs` of a text: separated by slashes. -/
inductive Text : List Bytes → Bytes → Prop where
  | last (c : Bytes) : (0x2f : Byte) ∉ c → Text [c] c
  | more (c : Bytes) (cs : List Bytes) (t : Bytes) : (0x2f : Byte) ∉ c → Text cs t → Text (c :: cs) (c ++ 0x2f :: t)

/-- Where a list of paths, each relative to the one before it, leads from the directory `b`: empty ones at the beginning don't count, and if the first one begins
with a slash, ".." doesn't lead above `b`. -/
def Lands (b es d : List Bytes) : Prop :=
  ∃ cs, Text cs (([0x2f] : Bytes).intercalate (es.dropWhile (· = []))) ∧ if cs.head? = some [] then ∃ e, Walk [] cs e ∧ d = b ++ e else Walk b cs d

/-- Identifiers: letters, digits, underscores and hyphens, beginning with a letter or an underscore. -/
def Identifier (s : Bytes) : Prop :=
  (∀ c ∈ s, (0x61 ≤ c.toNat ∧ c.toNat ≤ 0x7a) ∨ (0x41 ≤ c.toNat ∧ c.toNat ≤ 0x5a) ∨ c.toNat = 0x5f ∨ c.toNat = 0x2d ∨ (0x30 ≤ c.toNat ∧ c.toNat ≤ 0x39)) ∧
  ∃ c, s.head? = some c ∧ ((0x61 ≤ c.toNat ∧ c.toNat ≤ 0x7a) ∨ (0x41 ≤ c.toNat ∧ c.toNat ≤ 0x5a) ∨ c.toNat = 0x5f)

/-- All of the file system `t` is mounted there. -/
def Mounts (t : Bytes) (e : Entry) : Prop := e.fsType = t ∧ e.root = [0x2f]

/-- "tracefs" -/
def tracefs : Bytes := [0x74, 0x72, 0x61, 0x63, 0x65, 0x66, 0x73]

/-- "debugfs" -/
def debugfs : Bytes := [0x64, 0x65, 0x62, 0x75, 0x67, 0x66, 0x73]

/-- The directory with this name in that directory. -/
def below (p name : Bytes) : Bytes := if p = [0x2f] then p ++ name else p ++ 0x2f :: name

/-- "tracing" -/
def tracing : Bytes := [0x74, 0x72, 0x61, 0x63, 0x69, 0x6e, 0x67]

/-- Nothing that is mounted can be used. -/
def Nothing (env : Env) : Prop := ∀ es, env.entries = some es → ∀ e ∈ es, ¬ Mounts tracefs e ∧ (Mounts debugfs e → env.isDir (below e.mountPoint tracing) = false)

/-- "/sys/kernel/tracing" -/
def place1 : Bytes := [0x2f, 0x73, 0x79, 0x73, 0x2f, 0x6b, 0x65, 0x72, 0x6e, 0x65, 0x6c, 0x2f, 0x74, 0x72, 0x61, 0x63, 0x69, 0x6e, 0x67]

/-- "/sys/kernel/debug/tracing" -/
def place2 : Bytes := [0x2f, 0x73, 0x79, 0x73, 0x2f, 0x6b, 0x65, 0x72, 0x6e, 0x65, 0x6c, 0x2f, 0x64, 0x65, 0x62, 0x75, 0x67, 0x2f, 0x74, 0x72, 0x61, 0x63, 0x69, 0x6e, 0x67]

/-- Where tracefs is: where it is mounted first; else in the first debugfs which has it; else, if one of the two usual places is in the right kind of file system, there. -/
inductive Found (env : Env) : Bytes → Prop where
  | mounted (a b : List Entry) (e : Entry) : env.entries = some (a ++ e :: b) → Mounts tracefs e → (∀ x ∈ a, ¬ Mounts tracefs x) → Found env e.mountPoint
  | debug (a b : List Entry) (e : Entry) : env.entries = some (a ++ e :: b) → (∀ x ∈ a ++ e :: b, ¬ Mounts tracefs x) →
      Mounts debugfs e → env.isDir (below e.mountPoint tracing) = true →
      (∀ x ∈ a, Mounts debugfs x → env.isDir (below x.mountPoint tracing) = false) → Found env (below e.mountPoint tracing)
  | place1 : Nothing env → env.fsType place1 = some 0x74726163 → Found env place1
  | place2 : Nothing env → env.fsType place1 ≠ some 0x74726163 → env.fsType place2 = some 0x74726163 ∨ env.fsType place2 = some 0x64626720 → Found env place2

/-- A directory given by an absolute path without "." and "..". -/
def Dir (p : Bytes) : Prop := ∃ d, (∀ c ∈ d, Name c) ∧ p = path d

end Ebpf.TracefsPath.Spec
