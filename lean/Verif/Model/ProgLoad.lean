import Verif.Base
/-!
# Model of loading with a verifier log: `prog.go:477-528, 577-616`, `btf/handle.go:56-109`, `internal/errors.go:16-116`

The kernel is a function from the number of the attempt and the attributes to its reply; it may answer anything. The part of
`newProgramWithOptions` before the loop is C11, C32, C61-C64. `programLoadError` is modelled by the error and the log it wraps; the messages it
adds are left out. `EAGAIN` is retried inside the system call (internal/sys/syscall_other.go:36-38) and never seen here.
-/
namespace Ebpf.ProgLoad

/-- The fields of `sys.ProgLoadAttr` or `sys.BtfLoadAttr` that control the log. -/
structure Attr where
  logLevel : BitVec 32
  logSize : BitVec 32
  trueSize : BitVec 32
deriving DecidableEq

/-- Errors of the kernel: `ENOSPC`, and all others by their number. -/
inductive Errno where
  | noSpace
  | other (n : Nat)
deriving DecidableEq

/-- What the kernel does: the descriptor or an error, `log_true_size` afterwards, and the bytes written to the log buffer. -/
structure Reply where
  result : Except Errno Nat
  trueSize : BitVec 32
  log : Bytes

/-- A kernel. -/
abbrev Kernel := Nat → Attr → Reply

/-- prog.go:56 `minVerifierLogSize`. -/
def minLog : BitVec 32 := 0x10000#32

/-- prog.go:61 `maxVerifierLogSize`. -/
def maxLog : BitVec 32 := 0x3fffffff#32

/-- prog.go:67 `maxVerifierAttempts`. -/
def maxAttempts : Nat := 30

/-- internal/math.go:14-22 `Between`, for uint32. -/
def between (v a b : BitVec 32) : BitVec 32 :=
  let lower := if b < a then b else a
  let upper := if b < a then a else b
  let v := if upper < v then upper else v
  if v < lower then lower else v

/-- prog.go:577-616 `retryLogAttrs`; `none` is false. -/
def retryLogAttrs (attr : Attr) (start : BitVec 32) (err : Errno) : Option Attr :=
  if attr.logSize = maxLog then none
  else if err = .noSpace then
    if attr.trueSize ≠ 0#32 then some { attr with logSize := attr.trueSize }
    else if maxLog / 2#32 ≤ attr.logSize then some { attr with logSize := maxLog }
    else some { attr with logSize := between attr.logSize minLog (maxLog / 2#32) * 2#32 }
  else if attr.logLevel = 0#32 then some { attr with logLevel := 1#32, logSize := between start minLog maxLog }
  else none

/-- The options of `ProgramOptions` used here. -/
structure Options where
  logLevel : BitVec 32
  logSizeStart : BitVec 32
  logDisabled : Bool

/-- How loading ends: a program with its log, an error with the log, or an error after too many attempts. -/
inductive Outcome where
  | loaded (fd : Nat) (log : Bytes)
  | rejected (err : Errno) (log : Bytes)
  | tooManyAttempts (err : Errno)
deriving DecidableEq

/-- The C string at the start of a buffer: golang.org/x/sys/unix.ByteSliceToString, internal/errors.go:21-23. -/
def cString (b : Bytes) : Bytes := b.takeWhile (· ≠ 0#8)

/-- prog.go:500, 504: the buffer of `size` zeroes after the kernel has written to it. -/
def buffer (size : BitVec 32) (written : Bytes) : Bytes := written.take size.toNat ++ List.replicate (size.toNat - written.length) 0#8

/-- prog.go:498-517: the loop, with the attributes of all attempts. `buf` is `logBuf`; `none`: out of fuel. -/
def loop (k : Kernel) (start : BitVec 32) : Nat → Nat → Attr → Bytes → Option (Outcome × List Attr)
  | 0, _, _, _ => none
  | fuel + 1, attempts, attr, buf =>
    let r := k attempts attr
    let buf := if attr.logLevel ≠ 0#32 then buffer attr.logSize r.log else buf
    match r.result with
    | .ok fd => some (.loaded fd (cString buf), [attr])
    | .error e =>
      match retryLogAttrs { attr with trueSize := r.trueSize } start e with
      | none => some (.rejected e (cString buf), [attr])
      | some attr' =>
        if maxAttempts ≤ attempts then some (.tooManyAttempts e, [attr])
        else (loop k start fuel (attempts + 1) attr' buf).map fun o => (o.1, attr :: o.2)

/-- prog.go:477-528. -/
def load (k : Kernel) (o : Options) (fuel : Nat) : Option (Outcome × List Attr) :=
  if o.logDisabled then
    let attr : Attr := ⟨0#32, 0#32, 0#32⟩
    match (k 1 attr).result with
    | .ok fd => some (.loaded fd [], [attr])
    | .error e => some (.rejected e [], [attr])
  else if o.logLevel ≠ 0#32 then loop k o.logSizeStart fuel 1 ⟨o.logLevel, between o.logSizeStart minLog maxLog, 0#32⟩ []
  else loop k o.logSizeStart fuel 1 ⟨0#32, 0#32, 0#32⟩ []

/-! ## BTF -/

/-- How loading BTF ends. -/
inductive BtfOutcome where
  | loaded (fd : Nat)
  | rejected (err : Errno) (log : Bytes)
  | overflow
deriving DecidableEq

/-- btf/handle.go:85: `uint32(max(len(logBuf)*2, minLogSize))`; `int` has 64 bits. -/
def guess (len : Nat) : BitVec 32 := BitVec.ofNat 32 (max (len * 2) 0x10000)

/-- btf/handle.go:63-99: the loop; `buf` is `logBuf`. -/
def btfLoop (k : Kernel) : Nat → Nat → Attr → Bytes → Option (BtfOutcome × List Attr)
  | 0, _, _, _ => none
  | fuel + 1, attempts, attr, buf =>
    let r := k attempts attr
    let buf := if attr.logLevel ≠ 0#32 then buffer attr.logSize r.log else buf
    match r.result with
    | .ok fd => some (.loaded fd, [attr])
    | .error e =>
      if r.trueSize ≠ 0#32 ∧ r.trueSize ≤ attr.logSize then some (.rejected e (cString buf), [attr])
      else if attr.logSize ≠ 0#32 ∧ e ≠ .noSpace then some (.rejected e (cString buf), [attr])
      else if (guess buf.length).toNat < buf.length then some (.overflow, [attr])
      else
        let size := if r.trueSize ≠ 0#32 then r.trueSize else guess buf.length
        (btfLoop k fuel (attempts + 1) ⟨1#32, size, r.trueSize⟩ (buffer size [])).map fun o => (o.1, attr :: o.2)

/-- btf/handle.go:40-109 `NewHandleFromRawBTF`. -/
def btfLoad (k : Kernel) (fuel : Nat) : Option (BtfOutcome × List Attr) := btfLoop k fuel 1 ⟨0#32, 0#32, 0#32⟩ []

/-! ## errors -/

/-- internal/errors.go:17: the bytes of `whitespace`. -/
def isSpace (b : Byte) : Bool := b = 9#8 || b = 13#8 || b = 11#8 || b = 10#8 || b = 32#8

/-- `bytes.TrimRight`. -/
def trimRight (l : Bytes) : Bytes := (l.reverse.dropWhile isSpace).reverse

/-- `bytes.Trim`. -/
def trim (l : Bytes) : Bytes := trimRight (l.dropWhile isSpace)

/-- `bytes.Split(log, []byte{'\n'})`. -/
def splitLines : Bytes → List Bytes
  | [] => [[]]
  | b :: bs =>
    if b = 10#8 then [] :: splitLines bs
    else
      match splitLines bs with
      | [] => [[b]]
      | l :: ls => (b :: l) :: ls

/-- internal/errors.go:16-38 `ErrorWithLog`: the field `Log`. -/
def errorLog (log : Bytes) : List Bytes :=
  let l := trim (cString log)
  if l = [] then [] else (splitLines l).map trimRight

/-- internal/errors.go:54-58: is this the line of statistics, "processed ". -/
def isProcessed (l : Bytes) : Bool := [0x70#8, 0x72#8, 0x6f#8, 0x63#8, 0x65#8, 0x73#8, 0x73#8, 0x65#8, 0x64#8, 0x20#8].isPrefixOf l

/-- internal/errors.go:90-116 `includePreviousLine`; "invalid bpf_context access" is spelled out. -/
def includePreviousLine (l : Bytes) : Bool :=
  [9#8].isPrefixOf l ||
  (match l with
    | a :: b :: _ => a = 0x52#8 && 0x30#8 ≤ b && b ≤ 0x39#8
    | _ => false) ||
  [0x69#8, 0x6e#8, 0x76#8, 0x61#8, 0x6c#8, 0x69#8, 0x64#8, 0x20#8, 0x62#8, 0x70#8, 0x66#8, 0x5f#8, 0x63#8, 0x6f#8, 0x6e#8, 0x74#8, 0x65#8, 0x78#8, 0x74#8, 0x20#8,
    0x61#8, 0x63#8, 0x63#8, 0x65#8, 0x73#8, 0x73#8].isPrefixOf l

/-- internal/errors.go:54-58: the log without a final line of statistics. -/
def withoutStats (log : List Bytes) : List Bytes :=
  match log.getLast? with
  | some l => if isProcessed l then log.dropLast else log
  | none => log

/-- `strings.TrimSpace` for ASCII: tab, line feed, vertical tab, form feed, carriage return, space. -/
def isSpaceGo (b : Byte) : Bool := b = 9#8 || b = 10#8 || b = 11#8 || b = 12#8 || b = 13#8 || b = 32#8

/-- `strings.TrimSpace`, for lines of ASCII. -/
def trimSpace (l : Bytes) : Bytes := ((l.dropWhile isSpaceGo).reverse.dropWhile isSpaceGo).reverse

/-- internal/errors.go:52-86 `Error`: the lines shown, and the number of lines omitted. -/
def summary (log : List Bytes) : List Bytes × Nat :=
  let l := withoutStats log
  let n := l.length
  if n = 0 then ([], 0)
  else
    let last := l.getLastD []
    let lines := if 2 ≤ n ∧ includePreviousLine last = true then l.drop (n - 2) else l.drop (n - 1)
    (lines.map trimSpace, log.length - lines.length)

end Ebpf.ProgLoad
