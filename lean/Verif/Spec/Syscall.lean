import Verif.Model.Syscall
/-!
# Specification: tokens and signals
-/
namespace Ebpf.SyscSpec
open Ebpf.Sysc

/-- What a mount gives: a token and what is known about it, or an error. -/
def outcome (m : Mnt) : Except Nat (Option TokenInfo) :=
  match m.open_, m.create, m.info with
  | some e, _, _ => .error e
  | none, some e, _ => .error e
  | none, none, .ok i => .ok (some i)
  | none, none, .error e => if e = 22 then .ok none else .error e

/-- No token here, for a reason that is expected. -/
def Skipped (m : Mnt) : Prop := ∃ e, outcome m = .error e ∧ e ∈ [13, 22, 1, 95, 2]

/-- The token lets one do this. -/
def Allowed (i : TokenInfo) (cmd : Nat) (attr : Attr) : Prop :=
  i.cmds.testBit cmd = true ∧ (cmd = 0 → i.maps.testBit attr.typ = true) ∧ (cmd = 5 → i.progs.testBit attr.typ = true ∧ i.attachs.testBit attr.attach = true)

/-- Attributes with this token. -/
def withToken (cmd : Nat) (attr : Attr) : Option Token → Attr
  | some t => if cmd ∈ [0, 5, 18] then { attr with tokenFd := t.fd, flags := attr.flags ||| 2 ^ 16 } else attr
  | none => attr

/-- Every bit mask has 64 bits. -/
def Fits (i : TokenInfo) : Prop := i.cmds < 2 ^ 64 ∧ i.maps < 2 ^ 64 ∧ i.progs < 2 ^ 64 ∧ i.attachs < 2 ^ 64

/-- Is the signal in the set? -/
def member (w : Nat) (set : List Nat) (signal : Nat) : Bool := (set[(signal - 1) / w]?.getD 0).testBit ((signal - 1) % w)

end Ebpf.SyscSpec
