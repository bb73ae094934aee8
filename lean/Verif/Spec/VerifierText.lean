import Verif.Model.VerifierText
import Verif.Spec.KernelInfo
/-!
# Specification: the text of a verifier error
-/
namespace Ebpf.VerifierText.Spec
open Ebpf.VerifierText

/-- ASCII text. -/
def text (s : String) : Bytes := s.toList.map fun c => BitVec.ofNat 8 c.toNat

/-- White space: tab, line feed, vertical tab, form feed, carriage return, space. -/
def White (c : Byte) : Prop := c ∈ [0x09#8, 0x0a#8, 0x0b#8, 0x0c#8, 0x0d#8, 0x20#8]

/-- `t` is `l` without white space at its ends. -/
def Trimmed (l t : Bytes) : Prop :=
  ∃ a b, l = a ++ t ++ b ∧ (∀ c ∈ a, White c) ∧ (∀ c ∈ b, White c) ∧ (∀ c, t.head? = some c → ¬ White c) ∧ (∀ c, t.getLast? = some c → ¬ White c)

/-- The line with statistics. -/
def Stats (l : Bytes) : Prop := text "processed " <+: l

/-- The log without a last line of statistics. -/
def Body (log b : List Bytes) : Prop := (∃ p, Stats p ∧ log = b ++ [p]) ∨ (b = log ∧ ∀ p, log.getLast? = some p → ¬ Stats p)

/-- A line that is understood with the one before it only: it is indented, says something about a register, or about the context. -/
def NeedsContext (l : Bytes) : Prop :=
  text "\t" <+: l ∨ (∃ d r, l = 0x52#8 :: d :: r ∧ 0x30 ≤ d.toNat ∧ d.toNat ≤ 0x39) ∨ text "invalid bpf_context access" <+: l

/-- The lines in the short text: the last one, and the one before it if it is needed. -/
inductive Shown (log : List Bytes) : List Bytes → Prop
  | none : Body log [] → Shown log []
  | one {i l} : Body log (i ++ [l]) → (i = [] ∨ ¬ NeedsContext l) → Shown log [l]
  | two {i p l} : Body log (i ++ [p, l]) → NeedsContext l → Shown log [p, l]

/-- Lines after colons, trimmed. -/
inductive Colons : List Bytes → Bytes → Prop
  | nil : Colons [] []
  | cons {l t r x} : Trimmed l t → Colons r x → Colons (l :: r) (text ": " ++ t ++ x)

/-- Lines of their own, indented. -/
def Lines (l : List Bytes) : Bytes := (l.map fun x => text "\n\t" ++ x).flatten

/-- The note about lines that aren't shown. -/
def Note (sep : Bytes) (n : Nat) (t : Bytes) : Prop :=
  (n = 0 ∧ t = []) ∨ (n ≠ 0 ∧ t = sep ++ text "(" ++ Ebpf.KernelInfoSpec.dec n ++ text " line(s) omitted)")

/-- How many lines are wanted of `len`: `width`, but no more than there are; all, if there is no width. -/
def Wanted (width : Option Nat) (len k : Nat) : Prop := (width = none ∧ k = len) ∨ ∃ n, width = some n ∧ k = min n len

/-- The short text. -/
def Short (e : VErr) (t : Bytes) : Prop :=
  ∃ shown c n, Shown e.log shown ∧ Colons shown c ∧ ((shown = [] ∧ n = []) ∨ (shown ≠ [] ∧ Note (text " ") (e.log.length - shown.length) n)) ∧
    t = e.source ++ text ": " ++ e.cause ++ c ++ n

end Ebpf.VerifierText.Spec
