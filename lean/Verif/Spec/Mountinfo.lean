import Verif.Base
/-! # What the kernel prints in /proc/self/mountinfo (fs/proc_namespace.c `show_mountinfo`) -/
namespace Ebpf.Spec.Mountinfo

/-- The kernel's octal escaping of paths: escape set `" \t\n\\"`. -/
def escape : List Char → List Char
  | [] => []
  | ' ' :: r => ['\\', '0', '4', '0'] ++ escape r
  | '\t' :: r => ['\\', '0', '1', '1'] ++ escape r
  | '\n' :: r => ['\\', '0', '1', '2'] ++ escape r
  | '\\' :: r => ['\\', '1', '3', '4'] ++ escape r
  | c :: r => c :: escape r

/-- The property White_Space of Unicode: ranges of code points. -/
def whiteSpace : List (Nat × Nat) :=
  [(0x0009, 0x000d), (0x0020, 0x0020), (0x0085, 0x0085), (0x00a0, 0x00a0), (0x1680, 0x1680), (0x2000, 0x200a), (0x2028, 0x2029), (0x202f, 0x202f),
   (0x205f, 0x205f), (0x3000, 0x3000)]

/-- Words separated by single spaces. -/
def join : List (List Char) → List Char
  | [] => []
  | [w] => w
  | w :: ws => w ++ ' ' :: join ws

/-- A mount as the kernel knows it; `opt` are the optional tagged fields. -/
structure Mount where
  id : List Char
  parent : List Char
  dev : List Char
  root : List Char
  mountPoint : List Char
  options : List Char
  opt : List (List Char)
  fsType : List Char
  source : List Char
  super : List Char

/-- `{id} {parent id} {major:minor} {root} {mount point} {options} [optional...] - {type} {source} {super}`. -/
def line (m : Mount) : List Char :=
  join ([m.id, m.parent, m.dev, escape m.root, escape m.mountPoint, m.options] ++ m.opt) ++
    " - ".toList ++ join [m.fsType, m.source, m.super]

/-- The file: one line per mount. -/
def file : List Mount → List Char
  | [] => []
  | m :: ms => line m ++ '\n' :: file ms

end Ebpf.Spec.Mountinfo
