import Verif.Base
/-!
# Specification: how Linux reads the commands written to kprobe_events and uprobe_events

kernel/trace/trace.c `trace_parse_run_command`, kernel/trace/trace_kprobe.c `trace_kprobe_create`, kernel/trace/trace_uprobe.c `trace_uprobe_create`,
kernel/trace/trace_probe.c `traceprobe_parse_event_name`, `traceprobe_split_symbol_offset`. Only what the library uses: no fetch arguments.
-/
namespace Ebpf.TracefsSpec

/-- White space of the kernel: space, \t, \n, \v, \f, \r. -/
def isSpace (c : Byte) : Bool := c = 0x20#8 || (0x09#8 ≤ c && c ≤ 0x0d#8)

/-- Split at every byte that satisfies `p`. -/
def splitBy (p : Byte → Bool) : Bytes → List Bytes
  | [] => [[]]
  | c :: cs =>
    if p c then [] :: splitBy p cs
    else match splitBy p cs with
      | [] => [[c]]
      | w :: ws => (c :: w) :: ws

/-- The longest prefix of bytes satisfying `p`, and the rest. -/
def span (p : Byte → Bool) (l : Bytes) : Bytes × Bytes := (l.takeWhile p, l.dropWhile p)

/-- Words of a line, up to a '#'. -/
def words (l : Bytes) : List Bytes := (splitBy isSpace (l.takeWhile (· ≠ 0x23#8))).filter (· ≠ [])

/-- The value of a hexadecimal digit. -/
def hexVal (c : Byte) : Option Nat :=
  if 0x30 ≤ c.toNat ∧ c.toNat ≤ 0x39 then some (c.toNat - 0x30)
  else if 0x61 ≤ c.toNat ∧ c.toNat ≤ 0x66 then some (c.toNat - 0x61 + 10)
  else none

/-- A number in a base, most significant digit first. -/
def number (base : Nat) (ds : Bytes) : Option Nat :=
  if ds = [] then none
  else ds.foldl (fun acc c => match acc, hexVal c with
    | some n, some d => if d < base then some (n * base + d) else none
    | _, _ => none) (some 0)

/-- `kstrtoul` with base 0: hexadecimal after 0x, decimal if it does not start with 0. -/
def parseNumber : Bytes → Option Nat
  | 0x30#8 :: 0x78#8 :: ds => number 16 ds
  | 0x30#8 :: _ => none
  | ds => number 10 ds

/-- Where a probe is set. -/
inductive Place where
  | kernel (symbol : Bytes) (offset : Nat)
  | user (path : Bytes) (offset refCtr : Nat)
deriving DecidableEq

/-- A command. -/
inductive Cmd where
  | set (ret : Bool) (maxActive : Nat) (group event : Bytes) (place : Place)
  | remove (group event : Bytes)
deriving DecidableEq

/-- `GRP/EVENT` at the first slash or dot. -/
def groupEvent (w : Bytes) : Option (Bytes × Bytes) :=
  match span (fun c => !(c = 0x2f#8 || c = 0x2e#8)) w with
  | (g, _ :: e) => if g = [] ∨ e = [] then none else some (g, e)
  | _ => none

/-- The first word of a command: p, r or -, a number, and the name after the colon. -/
def head (w : Bytes) : Option (Byte × Nat × Bytes × Bytes) :=
  match w with
  | [] => none
  | c :: rest =>
    match span (· ≠ 0x3a#8) rest with
    | (num, _ :: name) =>
      match if num = [] then some 0 else parseNumber num, groupEvent name with
      | some n, some (g, e) => some (c, n, g, e)
      | _, _ => none
    | _ => none

/-- `SYM[+offs]`. -/
def kernelPlace (w : Bytes) : Option Place :=
  match span (fun c => !(c = 0x2b#8 || c = 0x2d#8)) w with
  | (s, []) => some (.kernel s 0)
  | (s, c :: off) => if c = 0x2b#8 then (parseNumber off).map (.kernel s) else none

/-- `PATH:OFFSET` or `PATH:OFFSET(REF)`, at the last colon. -/
def userPlace (w : Bytes) : Option Place :=
  match span (· ≠ 0x3a#8) w.reverse with
  | (tail, _ :: path) =>
    match span (· ≠ 0x28#8) tail.reverse with
    | (off, []) => (parseNumber off).map fun n => .user path.reverse n 0
    | (off, _ :: ref) =>
      match span (· ≠ 0x29#8) ref with
      | (r, [_]) =>
        match parseNumber off, parseNumber r with
        | some n, some m => some (.user path.reverse n m)
        | _, _ => none
      | _ => none
  | _ => none

/-- One line, in kprobe_events or uprobe_events. -/
def parseLine (uprobe : Bool) (l : Bytes) : Option Cmd :=
  match words l with
  | [w] =>
    match head w with
    | some (c, _, g, e) => if c = 0x2d#8 then some (.remove g e) else none
    | none => none
  | [w, p] =>
    match head w, if uprobe then userPlace p else kernelPlace p with
    | some (c, n, g, e), some place => if c = 0x70#8 ∧ n = 0 then some (.set false 0 g e place) else if c = 0x72#8 then some (.set true n g e place) else none
    | _, _ => none
  | _ => none

/-- What a write to the events file means: one command per line, `none` for one that is refused. -/
def meaning (uprobe : Bool) (w : Bytes) : List (Option Cmd) := (splitBy (· = 0x0a#8) w).map (parseLine uprobe)

/-- `regexp.MustCompile("[^a-zA-Z0-9]+").ReplaceAllString(s, "_")`: maximal runs of other characters become one underscore. -/
inductive Sanitized (alnum : Byte → Prop) : Bytes → Bytes → Prop where
  | nil : Sanitized alnum [] []
  | keep {c s t} : alnum c → Sanitized alnum s t → Sanitized alnum (c :: s) (c :: t)
  | run {r s t} : r ≠ [] → (∀ c ∈ r, ¬ alnum c) → (∀ c, s.head? = some c → alnum c) → Sanitized alnum s t → Sanitized alnum (r ++ s) (0x5f#8 :: t)

/-- Letters and digits of ASCII. -/
def Alnum (c : Byte) : Prop := (0x61 ≤ c.toNat ∧ c.toNat ≤ 0x7a) ∨ (0x41 ≤ c.toNat ∧ c.toNat ≤ 0x5a) ∨ (0x30 ≤ c.toNat ∧ c.toNat ≤ 0x39)

end Ebpf.TracefsSpec
