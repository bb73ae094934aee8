import Verif.Base
/-!
# Specification: layout of the BTF type header (Documentation/bpf/btf.rst, `struct btf_type`)

Independent of the code: the info word as arithmetic on natural numbers.
* bits 0-15: vlen; bits 24-28: kind; bit 31: kind_flag.
-/
namespace Ebpf.BtfSpec

/-- "bits 0-15: vlen". -/
def vlen (info : Nat) : Nat := info % 65536
/-- "bits 24-28: kind". -/
def kind (info : Nat) : Nat := info / 2 ^ 24 % 32
/-- "bit 31: kind_flag". -/
def kflag (info : Nat) : Nat := info / 2 ^ 31 % 2
/-- `BTF_INT_ENCODING(VAL)  (((VAL) & 0x0f000000) >> 24)`. -/
def intEncoding (v : Nat) : Nat := v / 2 ^ 24 % 16
/-- `BTF_INT_OFFSET(VAL)    (((VAL) & 0x00ff0000) >> 16)`. -/
def intOffset (v : Nat) : Nat := v / 2 ^ 16 % 256
/-- `BTF_INT_BITS(VAL)      ((VAL)  & 0x000000ff)`. -/
def intBits (v : Nat) : Nat := v % 256

end Ebpf.BtfSpec
