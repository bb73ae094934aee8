import Verif.Model.OnceCache
/-! # What callers of the shared tables observe (only the event logs are used) -/
namespace Ebpf.Spec.OnceCache
open Ebpf.OnceCache

/-- Blanks of ASCII. -/
def Blanks (b : Bytes) : Prop := ∀ c ∈ b, c.toNat = 0x20 ∨ c.toNat = 0x09 ∨ c.toNat = 0x0b ∨ c.toNat = 0x0c ∨ c.toNat = 0x0d

/-- The number which decimal digits, most significant first, stand for. -/
inductive Digits : Bytes → Nat → Prop where
  | one (c : Byte) : 0x30 ≤ c.toNat → c.toNat ≤ 0x39 → Digits [c] (c.toNat - 0x30)
  | snoc (b : Bytes) (n : Nat) (c : Byte) : Digits b n → 0x30 ≤ c.toNat → c.toNat ≤ 0x39 → Digits (b ++ [c]) (10 * n + (c.toNat - 0x30))

/-- The data is the text, the number in decimal, and then a newline or the end; there may be blanks around the number. -/
def Shows (text data : Bytes) (n : Nat) : Prop :=
  ∃ b1 ds b2 tail, data = text ++ b1 ++ ds ++ b2 ++ tail ∧ Blanks b1 ∧ Digits ds n ∧ Blanks b2 ∧ (tail = [] ∨ ∃ r, tail = 0x0a :: r)

/-- What a read of a file for the key gave: the number which it shows. -/
inductive Gives (k : Key) : Except Nat Bytes → Ret → Prop where
  | unreadable (e : Nat) : Gives k (.error e) (.error (.os e))
  | number (data : Bytes) (v : BitVec 64) : Shows k.1 data v.toNat → Gives k (.ok data) (.ok v)
  | other (data : Bytes) : (∀ n, Shows k.1 data n → 2 ^ 64 ≤ n) → Gives k (.ok data) (.error .parse)

/-- A successful answer for the key in the log, if there was one. -/
def answered (k : Key) : List Ev → Option (BitVec 64)
  | [] => none
  | .ret _ j (.ok v) :: l => if j = k then some v else answered k l
  | _ :: l => answered k l

/-- The key of the latest call of goroutine `t`. -/
def callKey (t : Nat) : List Ev → Option Key
  | [] => none
  | .call u k :: l => if u = t then some k else callKey t l
  | _ :: l => callKey t l

/-- The successful answer for its key which was there when goroutine `t` made its latest call. -/
def knownAtCall (t : Nat) : List Ev → Option (BitVec 64)
  | [] => none
  | .call u k :: l => if u = t then answered k l else knownAtCall t l
  | _ :: l => knownAtCall t l

/-- What goroutine `t` read during its latest call, if anything. -/
def ownRead (t : Nat) : List Ev → Option (Except Nat Bytes)
  | [] => none
  | .call u _ :: l => if u = t then none else ownRead t l
  | .read u _ f :: l => if u = t then some f else ownRead t l
  | _ :: l => ownRead t l

/-- The key of the latest call of goroutine `t` to `retrieve`. -/
def probeKey (t : Nat) : List Probes.Ev → Option Nat
  | [] => none
  | .call u k :: l => if u = t then some k else probeKey t l
  | _ :: l => probeKey t l

/-- Number of tests of which making was begun and not finished. -/
def making : List Probes.Ev → Int
  | [] => 0
  | .start _ _ :: l => making l + 1
  | .made _ _ _ :: l => making l - 1
  | _ :: l => making l

/-- Number of calls of `newTest` for the key. -/
def starts (k : Nat) : List Probes.Ev → Nat
  | [] => 0
  | .start _ j :: l => (if j = k then 1 else 0) + starts k l
  | _ :: l => starts k l

/-- The goroutine is about to change the table (internal/io.go:126). -/
def Writes : PC → Prop
  | .storing .. => True
  | _ => False

/-- The goroutine is about to look at the table or to change it (internal/io.go:107, 121, 126). -/
def Accesses : PC → Prop
  | .rlocked .. | .wlocked .. | .storing .. => True
  | _ => False

/-- The goroutine is about to change the table of tests (internal/feature.go:225). -/
def ProbeWrites : Probes.PC → Prop
  | .storing .. => True
  | _ => False

/-- The goroutine is about to look at the table of tests or to change it (internal/feature.go:210, 220, 225). -/
def ProbeAccesses : Probes.PC → Prop
  | .rlocked .. | .wlocked .. | .storing .. => True
  | _ => False

end Ebpf.Spec.OnceCache
