import Verif.Base
/-!
# Model of `features/map.go`, `features/prog.go` (helpers) and `features/link.go`

The probes of package features. Every probe makes system calls through `Sys`, whose answers are arbitrary here; what Linux
answers is in Spec/Features. Not modelled: the cache in front of the probes (internal/feature.go: C42), how the verifier's log is
fetched and split into lines (prog.go), the probes for the program types Tracing, Extension and LSM (`Sys.btfProbe`).
-/
namespace Ebpf.Features

/-- sys.MapCreateAttr (internal/sys/types.go:1169-1190), without the fields no probe sets. -/
structure Attr where
  mapType : Nat := 0
  keySize : Nat := 0
  valueSize : Nat := 0
  maxEntries : Nat := 0
  mapFlags : Nat := 0
  innerMapFd : Nat := 0
  btfFd : Nat := 0
  btfKeyTypeId : Nat := 0
  btfValueTypeId : Nat := 0
  btfVmlinuxValueTypeId : Nat := 0
  mapExtra : Nat := 0
deriving DecidableEq, Repr

/-- A program to load (features/prog.go:242-279, features/link.go:23-32), as far as the probes differ. `helper` is called by the
first instruction, if any. -/
structure ProgReq where
  progType : Nat
  attachType : Nat := 0
  sleepable : Bool := false
  helper : Option Nat := none
  gpl : Bool := false
deriving DecidableEq, Repr

/-- What `ebpf.NewProgramWithOptions` gives (prog.go:485-575): a descriptor, a VerifierError with the cause and the log's lines,
or another error. -/
inductive LoadRes where
  | loaded
  | verifier (errno : Nat) (log : List (List Char))
  | poison (log : List (List Char))
  | other (errno : Nat)

/-- A link to create (features/link.go:44-50, 97-102, 148-153). -/
structure LinkReq where
  progFd : Nat
  attachType : Nat
  uprobe : Bool
  path : List Char := []
  symbol : List Char := []
  count : Nat
deriving DecidableEq, Repr

/-- The errors of probes: ErrNotSupported, an errno, or another error. -/
inductive Err where
  | notSupported
  | errno (e : Nat)
  | other
deriving DecidableEq, Repr

/-- The system calls. `create`, `load` and `link` say whether the kernel makes the object; if it does, `pick` is the descriptor
it gets, given those that are open. `btfProbe` stands for the probes which aren't modelled. -/
structure Sys where
  create : Attr → Except Nat Unit
  load : ProgReq → LoadRes
  link : LinkReq → Except Nat Unit
  pick : List Nat → Nat
  btfProbe : Nat → List Nat → Option Err × List Nat

/-- What a probe returns (`none` is nil), and the descriptors open afterwards. -/
abbrev Out := Option Err × List Nat

/-- unix.EINVAL (internal/unix/errno_linux.go). -/
def EINVAL : Nat := 22
/-- unix.E2BIG (internal/unix/errno_linux.go). -/
def E2BIG : Nat := 7
/-- unix.EBADF (internal/unix/errno_linux.go). -/
def EBADF : Nat := 9
/-- unix.EACCES (internal/unix/errno_linux.go). -/
def EACCES : Nat := 13
/-- unix.EOPNOTSUPP (internal/unix/errno_linux.go). -/
def EOPNOTSUPP : Nat := 95
/-- sys.ENOTSUPP (internal/sys/syscall.go). -/
def ENOTSUPP : Nat := 524

/-- fd.Close() (internal/sys/fd_other.go). -/
def close (n : Nat) (fds : List Nat) : List Nat := fds.filter (· ≠ n)

/-- features/map.go:76-95 createMap. -/
def createMap (s : Sys) (a : Attr) (fds : List Nat) : Out :=
  match s.create a with
  | .ok _ =>
    let n := s.pick fds
    (none, close n (n :: fds))
  | .error e => if e = EINVAL ∨ e = E2BIG then (some .notSupported, fds) else (some (.errno e), fds)

/-- features/map.go:65-74 probeMap. -/
def probeMap (s : Sys) (a : Attr) (fds : List Nat) : Out :=
  let a := if a.keySize = 0 then { a with keySize := 4 } else a
  let a := if a.valueSize = 0 then { a with valueSize := 4 } else a
  createMap s { a with maxEntries := 1 } fds

/-- `errors.Is(err, errno)`, then nil (features/map.go:48-52, 59-62, 199-203). -/
def accept (e : Nat) (o : Out) : Out := if o.1 = some (.errno e) then (none, o.2) else o

/-- features/map.go:22-31 probeCgroupStorageMap; `word` is unsafe.Sizeof(int(0)). -/
def probeCgroupStorageMap (s : Sys) (word mt : Nat) (fds : List Nat) : Out :=
  createMap s { mapType := mt, valueSize := 4, keySize := 8 + word, maxEntries := 0 } fds

/-- features/map.go:33-53 probeStorageMap. -/
def probeStorageMap (s : Sys) (mt : Nat) (fds : List Nat) : Out :=
  accept EBADF (createMap s { mapType := mt, keySize := 4, valueSize := 4, maxEntries := 0, mapFlags := 1, btfKeyTypeId := 1, btfValueTypeId := 1, btfFd := 0xffffffff } fds)

/-- features/map.go:55-63 probeNestedMap. -/
def probeNestedMap (s : Sys) (mt : Nat) (fds : List Nat) : Out :=
  accept EBADF (probeMap s { mapType := mt, innerMapFd := 0xffffffff } fds)

/-- The process: sizeof(int), os.Getpagesize(). -/
structure Proc where
  word : Nat
  page : Nat

/-- haveMapTypeMatrix and its init (features/map.go:97-265): the probe for each map type, if there is one. -/
def mapTypeProbe (s : Sys) (p : Proc) (mt : Nat) : Option (List Nat → Out) :=
  match mt with
  | 7 => some (probeMap s { mapType := 7, valueSize := 8 })
  | 11 => some (probeMap s { mapType := 11, keySize := 8, valueSize := 8, mapFlags := 1 })
  | 12 => some (probeNestedMap s 12)
  | 13 => some (probeNestedMap s 13)
  | 19 => some (probeCgroupStorageMap s p.word 19)
  | 21 => some (probeCgroupStorageMap s p.word 21)
  | 22 => some (createMap s { mapType := 22, keySize := 0, valueSize := 4, maxEntries := 1 })
  | 23 => some (createMap s { mapType := 23, keySize := 0, valueSize := 4, maxEntries := 1 })
  | 24 => some (probeStorageMap s 24)
  | 26 => some (fun fds => accept ENOTSUPP (probeMap s { mapType := 26, btfVmlinuxValueTypeId := 1 } fds))
  | 27 => some (createMap s { mapType := 27, keySize := 0, valueSize := 0, maxEntries := p.page })
  | 28 => some (probeStorageMap s 28)
  | 29 => some (probeStorageMap s 29)
  | 30 => some (createMap s { mapType := 30, keySize := 0, valueSize := 4, maxEntries := 1 })
  | 31 => some (createMap s { mapType := 31, keySize := 0, valueSize := 0, maxEntries := p.page })
  | 32 => some (probeStorageMap s 32)
  | 33 => some (createMap s { mapType := 33, keySize := 0, valueSize := 0, maxEntries := 1, mapExtra := 0, mapFlags := 1024 })
  | 1 | 2 | 3 | 4 | 5 | 6 | 8 | 9 | 10 | 14 | 15 | 16 | 17 | 18 | 20 | 25 => some (probeMap s { mapType := mt })
  | _ => none

/-- features/map.go:18-20 HaveMapType, internal/feature.go:170-186 FeatureMatrix.Result (on Linux, nothing cached). -/
def haveMapType (s : Sys) (p : Proc) (mt : Nat) (fds : List Nat) : Out :=
  match mapTypeProbe s p mt with
  | none => (some .other, fds)
  | some probe => probe fds

/-- features/map.go:289-310 probeMapFlag. -/
def probeMapFlag (s : Sys) (a : Attr) (fds : List Nat) : Out :=
  let a := if a.mapType = 0 then { a with mapType := 2 } else a
  let a := { a with keySize := 4, valueSize := 4, maxEntries := 1 }
  match s.create a with
  | .ok _ =>
    let n := s.pick fds
    (none, close n (n :: fds))
  | .error e => if e = EINVAL then (some .notSupported, fds) else (some (.errno e), fds)

/-- features/map.go:285-287 HaveMapFlag, 312-356 haveMapFlagsMatrix. -/
def haveMapFlag (s : Sys) (flag : Nat) (fds : List Nat) : Out :=
  match flag with
  | 1 => probeMapFlag s { mapType := 1, mapFlags := 1 } fds
  | 128 => probeMapFlag s { mapFlags := 128 } fds
  | 256 => probeMapFlag s { mapFlags := 256 } fds
  | 1024 => probeMapFlag s { mapFlags := 1024 } fds
  | 4096 => probeMapFlag s { mapFlags := 4096 } fds
  | _ => (some .other, fds)

/-- strings.Contains. -/
def hasSub (needle : List Char) : List Char → Bool
  | [] => needle.isEmpty
  | c :: cs => needle.isPrefixOf (c :: cs) || hasSub needle cs

/-- features/prog.go:316-326 logContainsAll. -/
def logContainsAll (log : List (List Char)) (needles : List (List Char)) : Bool :=
  (log.drop (log.length - 5)).any fun line => needles.all fun n => hasSub n line

/-- features/prog.go:328-334 helperProbeNotImplemented: Tracing 26, StructOps 27, Extension 28, LSM 29. -/
def helperProbeNotImplemented (pt : Nat) : Bool := pt == 28 || pt == 29 || pt == 27 || pt == 26

/-- features/prog.go:252-275: the program the helper is tried in. CGroupSockAddr 18, CGroupSockopt 25, SkLookup 30, Syscall 31, Netfilter 32. -/
def helperProg (pt helper : Nat) : ProgReq :=
  let r : ProgReq := { progType := pt, helper := some helper, gpl := true }
  match pt with
  | 18 => { r with attachType := 10 }
  | 25 => { r with attachType := 21 }
  | 30 => { r with attachType := 36 }
  | 31 => { r with sleepable := true }
  | 32 => { r with attachType := 45 }
  | _ => r

/-- features/prog.go:287-313: what an errno and a log mean. -/
def judgeHelper (helper e : Nat) (log : List (List Char)) : Option Err :=
  let tag := '#' :: (toString helper).toList
  if e = EACCES then none
  else if e = EINVAL then
    if logContainsAll log ["invalid func".toList, tag] then some .notSupported
    else if logContainsAll log ["program of this type cannot use helper".toList, tag] || logContainsAll log ["unknown func".toList] then some .notSupported
    else some (.errno e)
  else some (.errno e)

/-- features/prog.go:24-48 probeProgram. -/
def probeProgram (s : Sys) (r : ProgReq) (fds : List Nat) : Out :=
  match s.load r with
  | .loaded =>
    let n := s.pick fds
    (none, close n (n :: fds))
  | .verifier e _ | .other e => if e = EINVAL ∨ e = E2BIG then (some .notSupported, fds) else (some (.errno e), fds)
  | .poison _ => (some .other, fds)

/-- haveProgramTypeMatrix and its init (features/prog.go:50-204): the probe for each program type, if there is one. -/
def progTypeProbe (s : Sys) (pt : Nat) : Option (List Nat → Out) :=
  match pt with
  | 18 => some (probeProgram s { progType := 18, attachType := 10 })
  | 25 => some (probeProgram s { progType := 25, attachType := 21 })
  | 26 | 28 | 29 => some (s.btfProbe pt)
  | 27 => some (fun fds => accept ENOTSUPP (probeProgram s { progType := 27, gpl := true } fds))
  | 30 => some (probeProgram s { progType := 30, attachType := 36 })
  | 31 => some (probeProgram s { progType := 31, sleepable := true })
  | 32 => some (probeProgram s { progType := 32, attachType := 45 })
  | 1 | 2 | 3 | 4 | 5 | 6 | 7 | 8 | 9 | 10 | 11 | 12 | 13 | 14 | 15 | 16 | 17 | 19 | 20 | 21 | 22 | 23 | 24 => some (probeProgram s { progType := pt })
  | _ => none

/-- features/prog.go:20-22 HaveProgramType, internal/feature.go:170-186 FeatureMatrix.Result (on Linux, nothing cached). -/
def haveProgramType (s : Sys) (pt : Nat) (fds : List Nat) : Out :=
  match progTypeProbe s pt with
  | none => (some .other, fds)
  | some probe => probe fds

/-- features/prog.go:243-314 haveProgramHelper. -/
def haveProgramHelper (s : Sys) (pt helper : Nat) (fds : List Nat) : Out :=
  if helperProbeNotImplemented pt then (some .other, fds)
  else
    let t := haveProgramType s pt fds
    match t.1 with
    | some e => (some e, t.2)
    | none =>
      match s.load (helperProg pt helper) with
      | .loaded =>
        let n := s.pick t.2
        (none, close n (n :: t.2))
      | .verifier e log => (judgeHelper helper e log, t.2)
      | .poison _ => (some .other, t.2)
      | .other e => (some (.errno e), t.2)

/-- ebpf.NewProgram in the probes for links (features/link.go:23-39, 76-92, 127-143): load, E2BIG means not supported; then go on
with the program's descriptor, which is closed at the end. -/
def withProgram (s : Sys) (r : ProgReq) (fds : List Nat) (k : Nat → List Nat → Out) : Out :=
  match s.load r with
  | .verifier e _ | .other e => if e = E2BIG then (some .notSupported, fds) else (some (.errno e), fds)
  | .poison _ => (some .other, fds)
  | .loaded =>
    let n := s.pick fds
    let o := k n (n :: fds)
    (o.1, close n o.2)

/-- features/link.go:22-66 haveBPFLinkUprobeMulti. -/
def haveUprobeMulti (s : Sys) (fds : List Nat) : Out :=
  withProgram s { progType := 2, attachType := 48 } fds fun n fds =>
    match s.link { progFd := n, attachType := 48, uprobe := true, path := ['/'], count := 1 } with
    | .error e => if e = EBADF then (none, fds) else if e = EINVAL then (some .notSupported, fds) else (some (.errno e), fds)
    | .ok _ =>
      let l := s.pick fds
      (some .other, close l (l :: fds))

/-- features/link.go:75-117 haveBPFLinkKprobeMulti and 126-168 haveBPFLinkKprobeSession: the same but for the attach type. -/
def haveKprobeMulti (s : Sys) (attachType : Nat) (fds : List Nat) : Out :=
  withProgram s { progType := 2, attachType := attachType } fds fun n fds =>
    match s.link { progFd := n, attachType := attachType, uprobe := false, symbol := "vprintk".toList, count := 1 } with
    | .error e => if e = EINVAL then (some .notSupported, fds) else if e = EOPNOTSUPP then (some .notSupported, fds) else (some (.errno e), fds)
    | .ok _ =>
      let l := s.pick fds
      (none, close l (l :: fds))

/-- features/link.go:71-73 HaveBPFLinkKprobeMulti: AttachTraceKprobeMulti. -/
def haveKprobe (s : Sys) (fds : List Nat) : Out := haveKprobeMulti s 42 fds

/-- features/link.go:122-124 HaveBPFLinkKprobeSession: AttachTraceKprobeSession. -/
def haveKprobeSession (s : Sys) (fds : List Nat) : Out := haveKprobeMulti s 56 fds

end Ebpf.Features
