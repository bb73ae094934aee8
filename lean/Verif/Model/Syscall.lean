/-!
# Model of the bpf system call wrapper (`internal/sys/syscall_other.go`, `token.go`, `signals.go`)

Linux only. Error numbers, commands and types are those of Linux. `pthread_sigmask` doesn't fail (its arguments are constants).
`sync.Once` is a cache that is filled by the first caller. The system calls made while looking for a token are those of one environment.
-/
namespace Ebpf.Sysc

/-- internal/sys/types.go `MapCreateAttr`, `ProgLoadAttr`, `BtfLoadAttr`: what the wrapper reads and writes; `rest` is everything else.
`typ`: MapType or ProgType; `attach`: ExpectedAttachType. -/
structure Attr where
  typ : Nat
  attach : Nat
  flags : Nat
  tokenFd : Nat
  rest : List Nat
deriving DecidableEq

/-- internal/sys/types.go `TokenInfo`. -/
structure TokenInfo where
  cmds : Nat
  maps : Nat
  progs : Nat
  attachs : Nat
deriving DecidableEq

/-- token.go:26-31 `Token`. -/
structure Token where
  fd : Nat
  info : Option TokenInfo
deriving DecidableEq

/-- Errors: an error number; with "(ErrTokenCapabilities?)"; wrapped together with ErrTokenCapabilities; a failure to get a token. -/
inductive Err where
  | errno (n : Nat)
  | hint (n : Nat)
  | cap (n : Nat)
  | token (n : Nat)
deriving DecidableEq

/-- `errors.Is(err, errno)`. -/
def Err.is : Err → Nat → Bool
  | .errno n, m => n == m
  | .hint n, m => n == m
  | .cap n, m => n == m
  | .token n, m => n == m

/-- `errors.Is(err, ErrTokenCapabilities)`. -/
def Err.isCap : Err → Bool
  | .hint _ => true
  | .cap _ => true
  | _ => false

/-- A bpffs mount and what the system calls on it return: open, BPF_TOKEN_CREATE, BPF_OBJ_GET_INFO_BY_FD. -/
structure Mnt where
  open_ : Option Nat
  create : Option Nat
  info : Except Nat TokenInfo

/-- The thread and the process. `locked`: runtime.LockOSThread calls; `prof`: SIGPROF is blocked; `log`: bpf system calls with
command, attributes and whether SIGPROF was blocked. -/
structure St where
  locked : Nat
  prof : Bool
  cache : Option (Except Nat (Option Token))
  fds : List Nat
  next : Nat
  log : List (Nat × Attr × Bool)

/-- Attributes of the system calls on tokens. -/
def plain (fd : Nat) : Attr := ⟨0, 0, 0, 0, [fd]⟩

/-- One bpf system call. -/
def St.sysc (s : St) (cmd : Nat) (attr : Attr) : St := { s with log := s.log ++ [(cmd, attr, s.prof)] }
/-- A new descriptor. -/
def St.open_ (s : St) : St := { s with fds := s.next :: s.fds, next := s.next + 1 }
/-- close(2). -/
def St.close (s : St) (fd : Nat) : St := { s with fds := s.fds.erase fd }

/-- token.go:166-192 `newToken`. The commands used here take the path of `bpf` without a token and without masking signals (see `token_commands_plain`). -/
def newToken (m : Mnt) (s : St) : St × Except Nat Token :=
  match m.open_ with
  | some e => (s, .error e)
  | none =>
    let fsfd := s.next
    let s := (s.open_).sysc 36 (plain fsfd)
    match m.create with
    | some e => (s.close fsfd, .error e)
    | none =>
      let tfd := s.next
      let s := (s.open_).sysc 15 (plain tfd)
      match m.info with
      | .ok i => (s.close fsfd, .ok ⟨tfd, some i⟩)
      | .error e => if e = 22 then (s.close fsfd, .ok ⟨tfd, none⟩) else ((s.close tfd).close fsfd, .error e)

/-- token.go:143-149: EACCES, EINVAL, EPERM, EOPNOTSUPP, ENOENT. -/
def skip (e : Nat) : Bool := e == 13 || e == 22 || e == 1 || e == 95 || e == 2

/-- token.go:141-163: the loop of `findToken`. -/
def findLoop : List Mnt → St → St × Except Nat (Option Token)
  | [], s => (s, .ok none)
  | m :: r, s =>
    match newToken m s with
    | (s, .ok t) => (s, .ok (some t))
    | (s, .error e) => if skip e then findLoop r s else (s, .error e)

/-- token.go:131-164 `findToken`; `mounts`: FindByFSType("bpf"). -/
def findToken (mounts : Except Nat (List Mnt)) (s : St) : St × Except Nat (Option Token) :=
  match mounts with
  | .error e => (s, .error e)
  | .ok l => findLoop l s

/-- token.go:118-129 `getToken`. -/
def getToken (mounts : Except Nat (List Mnt)) (s : St) : St × Except Nat (Option Token) :=
  match s.cache with
  | some r => (s, r)
  | none =>
    match findToken mounts s with
    | (s, r) => ({ s with cache := some r }, r)

/-- token.go:197-201: MAP_CREATE, PROG_LOAD, BTF_LOAD. -/
def usesToken (cmd : Nat) : Bool := cmd == 0 || cmd == 5 || cmd == 18

/-- token.go:196-228 `tokenAttr`. -/
def tokenAttr (mounts : Except Nat (List Mnt)) (cmd : Nat) (attr : Attr) (s : St) : St × Except Nat (Option Token × Attr) :=
  if usesToken cmd then
    match getToken mounts s with
    | (s, .error e) => (s, .error e)
    | (s, .ok none) => (s, .ok (none, attr))
    | (s, .ok (some t)) => (s, .ok (some t, { attr with tokenFd := t.fd, flags := attr.flags ||| 65536 }))
  else (s, .ok (none, attr))

/-- token.go:73-103: `mask & (1 << n) != 0` in 64 bits. -/
def bit (mask n : Nat) : Bool := (mask &&& (1 <<< n) % 2 ^ 64) != 0

/-- token.go:42-70 `Capable`: true is nil. -/
def capable (t : Token) (cmd : Nat) (attr : Attr) : Bool :=
  match t.info with
  | none => true
  | some i =>
    if bit i.cmds cmd = false then false
    else if cmd = 0 then bit i.maps attr.typ
    else if cmd = 5 then bit i.progs attr.typ && bit i.attachs attr.attach
    else true

/-- syscall_other.go:43-63: the error. -/
def wrapErr (tok : Option Token) (cmd : Nat) (attr : Attr) (e : Nat) : Err :=
  match tok with
  | none => .errno e
  | some t =>
    if e = 1 then
      match t.info with
      | none => .hint e
      | some _ => if capable t cmd attr then .errno e else .cap e
    else .errno e

/-- syscall_other.go:33-66: the loop; `answers`: what the kernel returns; `none`: still running after `fuel` attempts. -/
def loop (tok : Option Token) (cmd : Nat) (attr : Attr) (answers : Nat → Except Nat Nat) : Nat → Nat → St → Option (St × Except Err Nat)
  | 0, _, _ => none
  | fuel + 1, i, s =>
    let s := s.sysc cmd attr
    match answers i with
    | .ok v => some (s, .ok v)
    | .error e => if e = 11 ∧ cmd = 5 then loop tok cmd attr answers fuel (i + 1) s else some (s, .error (wrapErr tok cmd attr e))

/-- signals.go:26-33 `maskProfilerSignal`. -/
def mask (s : St) : St := { s with locked := s.locked + 1, prof := true }
/-- signals.go:39-45 `unmaskProfilerSignal`. -/
def unmask (s : St) : St := { s with locked := s.locked - 1, prof := false }

/-- syscall_other.go:23: PROG_LOAD and PROG_RUN. -/
def masks (cmd : Nat) : Bool := cmd == 5 || cmd == 10

/-- syscall_other.go:27-66: the part between masking and unmasking. -/
def inner (mounts : Except Nat (List Mnt)) (answers : Nat → Except Nat Nat) (fuel cmd : Nat) (attr : Attr) (s : St) : Option (St × Except Err Nat) :=
  match tokenAttr mounts cmd attr s with
  | (s, .error e) => some (s, .error (.token e))
  | (s, .ok (tok, attr)) => loop tok cmd attr answers fuel 0 s

/-- syscall_other.go:20-67 `BPF`. -/
def bpf (mounts : Except Nat (List Mnt)) (answers : Nat → Except Nat Nat) (fuel cmd : Nat) (attr : Attr) (s : St) : Option (St × Except Err Nat) :=
  if masks cmd then (inner mounts answers fuel cmd attr (mask s)).map (fun r => (unmask r.1, r.2))
  else inner mounts answers fuel cmd attr s

/-! ## Signal sets -/

/-- signals.go:59-85 `sigsetAdd`; `w`: bits in a word. -/
def sigsetAdd (w : Nat) (set : List Nat) (signal : Int) : Option (List Nat) :=
  if signal < 1 then none
  else
    let b := (signal - 1).toNat
    if b / w ≥ set.length then none
    else some (set.modify (b / w) (fun x => x ||| 1 <<< (b % w)))

/-- signals.go:14-19 `init`: a set of `n` words with SIGPROF (27). -/
def profSet (w n : Nat) : List Nat := (List.replicate n 0).modify (26 / w) (fun x => x ||| 1 <<< (26 % w))

end Ebpf.Sysc
