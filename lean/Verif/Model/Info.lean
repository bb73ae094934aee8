/-!
# Model of reading information about programs and maps (`info.go`)

Linux only. A file of `/proc/self/fdinfo` is a list of lines `key:value`; scanning the text of a value is abstracted to tokens (a number in whatever base, or a word).
The elements of all buffers are numbers: bytes, IDs, addresses, or whole records.
-/
namespace Ebpf.Info

/-- A value in fdinfo. -/
inductive Tok where
  | num (n : Nat)
  | word (s : List Nat)
deriving DecidableEq

/-- Errors. `notSupported`: ErrNotSupported. -/
inductive Err where
  | einval
  | e2big
  | other
  | notSupported
  | badType
  | parse
deriving DecidableEq

/-- One entry of the map passed to scanFdInfo: is the variable zero; scan a value into it. -/
structure Field (σ : Type) where
  key : String
  isZero : σ → Bool
  set : Tok → σ → Option σ

/-- info.go:930-937: fmt.Fscan into an unsigned integer below `max` (or a bool, for 2). -/
def scanNum {σ : Type} (max : Nat) (f : Nat → σ → σ) : Tok → σ → Option σ
  | .num n, s => if n < max then some (f n s) else none
  | .word _, _ => none

/-- info.go:930-937: fmt.Fscan into a string. Fails on an empty value. -/
def scanWord {σ : Type} (f : List Nat → σ → σ) : Tok → σ → Option σ
  | .word w, s => if w = [] then none else some (f w s)
  | .num _, _ => none

/-- info.go:914-952 `scanFdInfoReader`: the loop over the lines; `none`: a line without a colon. -/
def scanLines {σ : Type} (fields : List (Field σ)) : List (Option (String × Tok)) → Nat → σ → Except Err (Nat × σ)
  | [], n, s => .ok (n, s)
  | none :: r, n, s => scanLines fields r n s
  | some (k, v) :: r, n, s =>
    match fields.find? (fun f => f.key == k) with
    | none => scanLines fields r n s
    | some f =>
      if f.isZero s = false then scanLines fields r (n + 1) s
      else
        match f.set v s with
        | none => .error .parse
        | some s => scanLines fields r (n + 1) s

/-- info.go:896-952 `scanFdInfo`; `none`: the file can't be opened. -/
def scanFdInfo {σ : Type} (fields : List (Field σ)) (file : Option (List (Option (String × Tok)))) (s : σ) : Except Err σ :=
  match file with
  | none => .error .other
  | some lines =>
    match scanLines fields lines 0 s with
    | .error e => .error e
    | .ok (n, s) => if fields.length > 0 ∧ n = 0 then .error .notSupported else .ok s

/-- internal/platform/constants.go:45-56 `EncodeConstant` for Linux. -/
def typeOk (t : Nat) : Bool := t < 2 ^ 28

/-! ## Maps -/

/-- internal/sys/types.go `MapInfo`. -/
structure KMapInfo where
  typ : Nat
  keySize : Nat
  valueSize : Nat
  maxEntries : Nat
  flags : Nat
  name : List Nat
  id : Nat
  btf : Nat
  extra : Nat
deriving DecidableEq

/-- info.go:40-60 `MapInfo`. -/
structure MapInfo where
  typ : Nat
  keySize : Nat
  valueSize : Nat
  maxEntries : Nat
  flags : Nat
  name : List Nat
  id : Nat
  btf : Nat
  extra : Nat
  memlock : Nat
  frozen : Bool
deriving DecidableEq

/-- info.go:146-157: where the fields go. The first component is the local variable `mapType`. -/
def mapFields : List (Field (Nat × MapInfo)) :=
  [⟨"map_type", fun s => s.1 == 0, scanNum (2 ^ 32) (fun n s => (n, s.2))⟩,
   ⟨"map_id", fun s => s.2.id == 0, scanNum (2 ^ 32) (fun n s => (s.1, { s.2 with id := n }))⟩,
   ⟨"key_size", fun s => s.2.keySize == 0, scanNum (2 ^ 32) (fun n s => (s.1, { s.2 with keySize := n }))⟩,
   ⟨"value_size", fun s => s.2.valueSize == 0, scanNum (2 ^ 32) (fun n s => (s.1, { s.2 with valueSize := n }))⟩,
   ⟨"max_entries", fun s => s.2.maxEntries == 0, scanNum (2 ^ 32) (fun n s => (s.1, { s.2 with maxEntries := n }))⟩,
   ⟨"map_flags", fun s => s.2.flags == 0, scanNum (2 ^ 32) (fun n s => (s.1, { s.2 with flags := n }))⟩,
   ⟨"map_extra", fun s => s.2.extra == 0, scanNum (2 ^ 64) (fun n s => (s.1, { s.2 with extra := n }))⟩,
   ⟨"memlock", fun s => s.2.memlock == 0, scanNum (2 ^ 64) (fun n s => (s.1, { s.2 with memlock := n }))⟩,
   ⟨"frozen", fun s => !s.2.frozen, scanNum 2 (fun n s => (s.1, { s.2 with frozen := n == 1 }))⟩]

/-- info.go:142-172 `readMapInfoFromProc`. The MapInfo is changed even if there is an error; it isn't used then. -/
def readMapInfoFromProc (file : Option (List (Option (String × Tok)))) (mi : MapInfo) : Except Err MapInfo :=
  match scanFdInfo mapFields file (0, mi) with
  | .error e => .error e
  | .ok (t, mi) =>
    if mi.typ = 0 then
      if typeOk t then .ok { mi with typ := t } else .error .badType
    else .ok mi

/-- unix.ByteSliceToString: up to the first zero. -/
def cstr (b : List Nat) : List Nat := b.takeWhile (fun c => c != 0)

/-- info.go:104-127: the fields from ObjInfo. -/
def mapInfoOf (info : KMapInfo) : MapInfo :=
  ⟨info.typ, info.keySize, info.valueSize, info.maxEntries, info.flags, cstr info.name, info.id, info.btf, info.extra, 0, false⟩

/-- What is in the variable `info` if the call failed. -/
def noMapInfo : KMapInfo := ⟨0, 0, 0, 0, 0, [], 0, 0, 0⟩

/-- info.go:97-140 `newMapInfoFromFd`. -/
def newMapInfo (obj : Except Err KMapInfo) (file : Option (List (Option (String × Tok)))) : Except Err MapInfo :=
  match obj with
  | .ok info =>
    if typeOk info.typ = false then .error .badType
    else
      match readMapInfoFromProc file (mapInfoOf info) with
      | .ok mi => .ok mi
      | .error .notSupported => .ok (mapInfoOf info)
      | .error e => .error e
  | .error .einval =>
    match readMapInfoFromProc file (mapInfoOf noMapInfo) with
    | .ok mi => .ok mi
    | .error e => .error e
  | .error e => .error e

/-! ## Programs -/

/-- A counted pointer in `sys.ProgInfo`: the count, whether the pointer is set, and the memory behind it. -/
structure Fld where
  count : Nat
  ptr : Bool
  buf : List Nat
deriving DecidableEq

/-- Not asked for. -/
def Fld.none : Fld := ⟨0, false, []⟩

/-- internal/sys/types.go:792-833 `ProgInfo`. -/
structure PI where
  typ : Nat
  id : Nat
  tag : List Nat
  name : List Nat
  loadTime : Nat
  uid : Nat
  btf : Nat
  verified : Nat
  funcRec : Nat
  lineRec : Nat
  jitedLineRec : Nat
  maps : Fld
  xlated : Fld
  jited : Fld
  ksyms : Fld
  funcLens : Fld
  funcInfo : Fld
  lineInfo : Fld
  jitedLine : Fld
deriving DecidableEq

/-- The zero value. -/
def PI.zero : PI := ⟨0, 0, List.replicate 8 0, List.replicate 16 0, 0, 0, 0, 0, 0, 0, 0, .none, .none, .none, .none, .none, .none, .none, .none⟩

/-- info.go:297-328 `ProgramInfo`. -/
structure PInfo where
  typ : Nat
  id : Nat
  tag : List Nat
  name : List Nat
  uid : Option Nat
  btf : Nat
  loadTime : Nat
  restricted : Bool
  maps : Option (List Nat)
  insns : List Nat
  numInsns : Nat
  jitedSize : Nat
  verified : Nat
  ksyms : List Nat
  jited : List Nat
  jitedLine : List Nat
  funcLens : List Nat
  lineInfo : List Nat
  numLineInfo : Nat
  funcInfo : List Nat
  numFuncInfo : Nat
  memlock : Nat
deriving DecidableEq

/-- A hexadecimal digit, as ASCII. -/
def hexDigit (n : Nat) : Nat := if n < 10 then 48 + n else 87 + n

/-- `hex.EncodeToString`. -/
def hex : List Nat → List Nat
  | [] => []
  | b :: r => hexDigit (b / 16) :: hexDigit (b % 16) :: hex r

/-- info.go:540-544: where the fields go. -/
def progFields : List (Field (Nat × PInfo)) :=
  [⟨"prog_type", fun s => s.1 == 0, scanNum (2 ^ 32) (fun n s => (n, s.2))⟩,
   ⟨"prog_tag", fun s => s.2.tag == [], scanWord (fun w s => (s.1, { s.2 with tag := w }))⟩,
   ⟨"memlock", fun s => s.2.memlock == 0, scanNum (2 ^ 64) (fun n s => (s.1, { s.2 with memlock := n }))⟩]

/-- info.go:538-562 `readProgramInfoFromProc`. -/
def readProgramInfoFromProc (file : Option (List (Option (String × Tok)))) (pi : PInfo) : Except Err PInfo :=
  match scanFdInfo progFields file (0, pi) with
  | .error e => .error e
  | .ok (t, pi) => if typeOk t then .ok { pi with typ := t } else .error .badType

/-- info.go:367-377: the fields from the first call. -/
def pinfoOf (info : PI) : PInfo :=
  { typ := info.typ, id := info.id, tag := hex info.tag, name := cstr info.name, uid := none, btf := info.btf, loadTime := info.loadTime, restricted := false,
    maps := none, insns := [], numInsns := info.xlated.count, jitedSize := info.jited.count, verified := info.verified, ksyms := [], jited := [], jitedLine := [],
    funcLens := [], lineInfo := [], numLineInfo := 0, funcInfo := [], numFuncInfo := 0, memlock := 0 }

/-- Ask for `n` elements of which `cap` fit into the memory. -/
def ask (n cap : Nat) : Fld := if n > 0 then ⟨n, cap > 0, List.replicate cap 0⟩ else .none

/-- How many records of size `rec` fit into `make([]byte, size*n)`, where the product has 32 bits. -/
def recCap (size n : Nat) : Nat := size * n % 2 ^ 32 / size

/-- info.go:396-398: the second call gives an address array in the same order. -/
def secondReq (info : PI) : PI :=
  { PI.zero with
    maps := ask info.maps.count info.maps.count
    lineInfo := ask info.lineInfo.count (recCap 16 info.lineInfo.count)
    lineRec := if info.lineInfo.count > 0 then 16 else 0
    funcInfo := ask info.funcInfo.count (recCap 8 info.funcInfo.count)
    funcRec := if info.funcInfo.count > 0 then 8 else 0
    jited := ask info.jited.count info.jited.count
    funcLens := ask info.funcLens.count info.funcLens.count
    jitedLine := ask info.jitedLine.count info.jitedLine.count
    jitedLineRec := if info.jitedLine.count > 0 then info.jitedLineRec else 0
    ksyms := ask info.ksyms.count info.ksyms.count }

/-- info.go:396, 402, 443, 452, 461, 469, 478, 486: `makeSecondCall`. -/
def makeSecondCall (info : PI) : Bool :=
  decide (info.maps.count > 0 ∨ info.lineInfo.count > 0 ∨ info.funcInfo.count > 0 ∨ info.jited.count > 0 ∨ info.funcLens.count > 0 ∨ info.jitedLine.count > 0 ∨ info.ksyms.count > 0)

/-- info.go:418-435: the instructions, in a call of their own. -/
def xlatedReq (info : PI) : PI := { PI.zero with xlated := ask info.xlated.count info.xlated.count }

/-- info.go:418-435: what becomes of the instructions. -/
def withInsns (call : Nat → PI → Except Err PI) (info : PI) (pi : PInfo) : Except Err PInfo :=
  if info.xlated.count > 0 then
    match call 1 (xlatedReq info) with
    | .error e => .error e
    | .ok i3 => if i3.xlated.ptr = false then .ok { pi with restricted := true, insns := [] } else .ok { pi with insns := i3.xlated.buf }
  else .ok pi

/-- info.go:400-416: maps and user. -/
def withMaps (haveMapIDs : Bool) (info : PI) (pi : PInfo) : PInfo :=
  if info.maps.count > 0 ∨ haveMapIDs then { pi with maps := some (List.replicate info.maps.count 0), uid := some info.uid } else pi

/-- info.go:437-501: everything else. -/
def withSecond (call : Nat → PI → Except Err PI) (info : PI) (pi : PInfo) : Except Err PInfo :=
  if makeSecondCall info then
    match call 2 (secondReq info) with
    | .error e => .error e
    | .ok i2 =>
      let pi := { pi with
        maps := if info.maps.count > 0 then some i2.maps.buf else pi.maps
        lineInfo := i2.lineInfo.buf, numLineInfo := info.lineInfo.count
        funcInfo := i2.funcInfo.buf, numFuncInfo := info.funcInfo.count }
      if info.jited.count > 0 ∧ i2.jited.ptr = false then .ok pi
      else .ok { pi with jited := i2.jited.buf, ksyms := i2.ksyms.buf, funcLens := i2.funcLens.buf, jitedLine := i2.jitedLine.buf }
  else .ok pi

/-- info.go:503-508, 512-536: the full name; `full` is the name of the function at offset 0 according to BTF, if it can be read. -/
def withName (full : Option (List Nat)) (pi : PInfo) : PInfo :=
  if pi.name.length = 15 ∧ pi.numFuncInfo ≠ 0 ∧ pi.btf > 0 then
    match full with
    | some n => { pi with name := n }
    | none => pi
  else pi

/-- info.go:388-510: after the first call and fdinfo. -/
def withRest (call : Nat → PI → Except Err PI) (haveMapIDs : Bool) (full : Option (List Nat)) (info : PI) (pi : PInfo) : Except Err PInfo :=
  match withInsns call info (withMaps haveMapIDs info pi) with
  | .error e => .error e
  | .ok pi =>
    match withSecond call info pi with
    | .error e => .error e
    | .ok pi => .ok (withName full pi)

/-- info.go:353-510 `newProgramInfoFromFd`; `call i` is the i-th system call. -/
def newProgramInfo (call : Nat → PI → Except Err PI) (file : Option (List (Option (String × Tok)))) (haveMapIDs : Bool) (full : Option (List Nat)) : Except Err PInfo :=
  match call 0 PI.zero with
  | .ok info =>
    if typeOk info.typ = false then .error .badType
    else
      match readProgramInfoFromProc file (pinfoOf info) with
      | .ok pi => withRest call haveMapIDs full info pi
      | .error .notSupported => withRest call haveMapIDs full info (pinfoOf info)
      | .error e => .error e
  | .error .einval =>
    match readProgramInfoFromProc file (pinfoOf PI.zero) with
    | .ok pi => withRest call haveMapIDs full PI.zero pi
    | .error e => .error e
  | .error e => .error e

/-- info.go:774-777 `MapIDs`. -/
def PInfo.mapIDs (pi : PInfo) : Option (List Nat) := pi.maps
/-- info.go:682-698 `Instructions`, before decoding: `none` is ErrNotSupported, `some none` ErrRestrictedKernel. -/
def PInfo.instructions (pi : PInfo) : Option (Option (List Nat)) := if pi.restricted then some none else if pi.insns.length = 0 then none else some (some pi.insns)
/-- info.go:809-825 `JitedKsymAddrs` on a 64-bit system. -/
def PInfo.jitedKsymAddrs (pi : PInfo) : Option (List Nat) := if pi.ksyms.length = 0 then none else some pi.ksyms
/-- info.go:832-834 `JitedInsns`. -/
def PInfo.jitedInsns (pi : PInfo) : Option (List Nat) := if pi.jited.length > 0 then some pi.jited else none
/-- info.go:841-843 `JitedLineInfos`. -/
def PInfo.jitedLineInfos (pi : PInfo) : Option (List Nat) := if pi.jitedLine.length > 0 then some pi.jitedLine else none
/-- info.go:850-852 `JitedFuncLens`. -/
def PInfo.jitedFuncLens (pi : PInfo) : Option (List Nat) := if pi.funcLens.length > 0 then some pi.funcLens else none

end Ebpf.Info
