/-!
# The table of section names, generated by tools/gen_sections.py from `elf_sections.go`

Program and attach types are the numbers of `internal/sys/types.go`. Of the flags only those that `getProgType` looks at are kept.
-/
namespace Ebpf.Sections

/-- elf_reader.go:1609-1614 `libbpfElfSectionDef`: pattern, program type, attach type, `_SEC_SLEEPABLE`, `_SEC_XDP_FRAGS`. -/
structure Def where
  pattern : List Char
  progType : Nat
  attachType : Nat
  sleepable : Bool
  xdpFrags : Bool
deriving DecidableEq, Repr

/-- elf_sections.go:9-115 `elfSectionDefs`. -/
def elfSectionDefs : List Def := [
  /- socket -/ ⟨['s', 'o', 'c', 'k', 'e', 't'], 1, 0, false, false⟩,
  /- sk_reuseport/migrate -/ ⟨['s', 'k', '_', 'r', 'e', 'u', 's', 'e', 'p', 'o', 'r', 't', '/', 'm', 'i', 'g', 'r', 'a', 't', 'e'], 21, 40, false, false⟩,
  /- sk_reuseport -/ ⟨['s', 'k', '_', 'r', 'e', 'u', 's', 'e', 'p', 'o', 'r', 't'], 21, 39, false, false⟩,
  /- kprobe+ -/ ⟨['k', 'p', 'r', 'o', 'b', 'e', '+'], 2, 0, false, false⟩,
  /- uprobe+ -/ ⟨['u', 'p', 'r', 'o', 'b', 'e', '+'], 2, 0, false, false⟩,
  /- uprobe.s+ -/ ⟨['u', 'p', 'r', 'o', 'b', 'e', '.', 's', '+'], 2, 0, true, false⟩,
  /- kretprobe+ -/ ⟨['k', 'r', 'e', 't', 'p', 'r', 'o', 'b', 'e', '+'], 2, 0, false, false⟩,
  /- uretprobe+ -/ ⟨['u', 'r', 'e', 't', 'p', 'r', 'o', 'b', 'e', '+'], 2, 0, false, false⟩,
  /- uretprobe.s+ -/ ⟨['u', 'r', 'e', 't', 'p', 'r', 'o', 'b', 'e', '.', 's', '+'], 2, 0, true, false⟩,
  /- kprobe.multi+ -/ ⟨['k', 'p', 'r', 'o', 'b', 'e', '.', 'm', 'u', 'l', 't', 'i', '+'], 2, 42, false, false⟩,
  /- kretprobe.multi+ -/ ⟨['k', 'r', 'e', 't', 'p', 'r', 'o', 'b', 'e', '.', 'm', 'u', 'l', 't', 'i', '+'], 2, 42, false, false⟩,
  /- kprobe.session+ -/ ⟨['k', 'p', 'r', 'o', 'b', 'e', '.', 's', 'e', 's', 's', 'i', 'o', 'n', '+'], 2, 56, false, false⟩,
  /- uprobe.multi+ -/ ⟨['u', 'p', 'r', 'o', 'b', 'e', '.', 'm', 'u', 'l', 't', 'i', '+'], 2, 48, false, false⟩,
  /- uretprobe.multi+ -/ ⟨['u', 'r', 'e', 't', 'p', 'r', 'o', 'b', 'e', '.', 'm', 'u', 'l', 't', 'i', '+'], 2, 48, false, false⟩,
  /- uprobe.session+ -/ ⟨['u', 'p', 'r', 'o', 'b', 'e', '.', 's', 'e', 's', 's', 'i', 'o', 'n', '+'], 2, 57, false, false⟩,
  /- uprobe.multi.s+ -/ ⟨['u', 'p', 'r', 'o', 'b', 'e', '.', 'm', 'u', 'l', 't', 'i', '.', 's', '+'], 2, 48, true, false⟩,
  /- uretprobe.multi.s+ -/ ⟨['u', 'r', 'e', 't', 'p', 'r', 'o', 'b', 'e', '.', 'm', 'u', 'l', 't', 'i', '.', 's', '+'], 2, 48, true, false⟩,
  /- uprobe.session.s+ -/ ⟨['u', 'p', 'r', 'o', 'b', 'e', '.', 's', 'e', 's', 's', 'i', 'o', 'n', '.', 's', '+'], 2, 57, true, false⟩,
  /- ksyscall+ -/ ⟨['k', 's', 'y', 's', 'c', 'a', 'l', 'l', '+'], 2, 0, false, false⟩,
  /- kretsyscall+ -/ ⟨['k', 'r', 'e', 't', 's', 'y', 's', 'c', 'a', 'l', 'l', '+'], 2, 0, false, false⟩,
  /- usdt+ -/ ⟨['u', 's', 'd', 't', '+'], 2, 0, false, false⟩,
  /- usdt.s+ -/ ⟨['u', 's', 'd', 't', '.', 's', '+'], 2, 0, true, false⟩,
  /- tc/ingress -/ ⟨['t', 'c', '/', 'i', 'n', 'g', 'r', 'e', 's', 's'], 3, 46, false, false⟩,
  /- tc/egress -/ ⟨['t', 'c', '/', 'e', 'g', 'r', 'e', 's', 's'], 3, 47, false, false⟩,
  /- tcx/ingress -/ ⟨['t', 'c', 'x', '/', 'i', 'n', 'g', 'r', 'e', 's', 's'], 3, 46, false, false⟩,
  /- tcx/egress -/ ⟨['t', 'c', 'x', '/', 'e', 'g', 'r', 'e', 's', 's'], 3, 47, false, false⟩,
  /- tc -/ ⟨['t', 'c'], 3, 0, false, false⟩,
  /- classifier -/ ⟨['c', 'l', 'a', 's', 's', 'i', 'f', 'i', 'e', 'r'], 3, 0, false, false⟩,
  /- action -/ ⟨['a', 'c', 't', 'i', 'o', 'n'], 4, 0, false, false⟩,
  /- netkit/primary -/ ⟨['n', 'e', 't', 'k', 'i', 't', '/', 'p', 'r', 'i', 'm', 'a', 'r', 'y'], 3, 54, false, false⟩,
  /- netkit/peer -/ ⟨['n', 'e', 't', 'k', 'i', 't', '/', 'p', 'e', 'e', 'r'], 3, 55, false, false⟩,
  /- tracepoint+ -/ ⟨['t', 'r', 'a', 'c', 'e', 'p', 'o', 'i', 'n', 't', '+'], 5, 0, false, false⟩,
  /- tp+ -/ ⟨['t', 'p', '+'], 5, 0, false, false⟩,
  /- raw_tracepoint+ -/ ⟨['r', 'a', 'w', '_', 't', 'r', 'a', 'c', 'e', 'p', 'o', 'i', 'n', 't', '+'], 17, 0, false, false⟩,
  /- raw_tp+ -/ ⟨['r', 'a', 'w', '_', 't', 'p', '+'], 17, 0, false, false⟩,
  /- raw_tracepoint.w+ -/ ⟨['r', 'a', 'w', '_', 't', 'r', 'a', 'c', 'e', 'p', 'o', 'i', 'n', 't', '.', 'w', '+'], 24, 0, false, false⟩,
  /- raw_tp.w+ -/ ⟨['r', 'a', 'w', '_', 't', 'p', '.', 'w', '+'], 24, 0, false, false⟩,
  /- tp_btf+ -/ ⟨['t', 'p', '_', 'b', 't', 'f', '+'], 26, 23, false, false⟩,
  /- fentry+ -/ ⟨['f', 'e', 'n', 't', 'r', 'y', '+'], 26, 24, false, false⟩,
  /- fmod_ret+ -/ ⟨['f', 'm', 'o', 'd', '_', 'r', 'e', 't', '+'], 26, 26, false, false⟩,
  /- fexit+ -/ ⟨['f', 'e', 'x', 'i', 't', '+'], 26, 25, false, false⟩,
  /- fentry.s+ -/ ⟨['f', 'e', 'n', 't', 'r', 'y', '.', 's', '+'], 26, 24, true, false⟩,
  /- fmod_ret.s+ -/ ⟨['f', 'm', 'o', 'd', '_', 'r', 'e', 't', '.', 's', '+'], 26, 26, true, false⟩,
  /- fexit.s+ -/ ⟨['f', 'e', 'x', 'i', 't', '.', 's', '+'], 26, 25, true, false⟩,
  /- fsession+ -/ ⟨['f', 's', 'e', 's', 's', 'i', 'o', 'n', '+'], 26, 58, false, false⟩,
  /- fsession.s+ -/ ⟨['f', 's', 'e', 's', 's', 'i', 'o', 'n', '.', 's', '+'], 26, 58, true, false⟩,
  /- freplace+ -/ ⟨['f', 'r', 'e', 'p', 'l', 'a', 'c', 'e', '+'], 28, 0, false, false⟩,
  /- lsm+ -/ ⟨['l', 's', 'm', '+'], 29, 27, false, false⟩,
  /- lsm.s+ -/ ⟨['l', 's', 'm', '.', 's', '+'], 29, 27, true, false⟩,
  /- lsm_cgroup+ -/ ⟨['l', 's', 'm', '_', 'c', 'g', 'r', 'o', 'u', 'p', '+'], 29, 43, false, false⟩,
  /- iter+ -/ ⟨['i', 't', 'e', 'r', '+'], 26, 28, false, false⟩,
  /- iter.s+ -/ ⟨['i', 't', 'e', 'r', '.', 's', '+'], 26, 28, true, false⟩,
  /- syscall -/ ⟨['s', 'y', 's', 'c', 'a', 'l', 'l'], 31, 0, true, false⟩,
  /- xdp.frags/devmap -/ ⟨['x', 'd', 'p', '.', 'f', 'r', 'a', 'g', 's', '/', 'd', 'e', 'v', 'm', 'a', 'p'], 6, 33, false, true⟩,
  /- xdp/devmap -/ ⟨['x', 'd', 'p', '/', 'd', 'e', 'v', 'm', 'a', 'p'], 6, 33, false, false⟩,
  /- xdp.frags/cpumap -/ ⟨['x', 'd', 'p', '.', 'f', 'r', 'a', 'g', 's', '/', 'c', 'p', 'u', 'm', 'a', 'p'], 6, 35, false, true⟩,
  /- xdp/cpumap -/ ⟨['x', 'd', 'p', '/', 'c', 'p', 'u', 'm', 'a', 'p'], 6, 35, false, false⟩,
  /- xdp.frags -/ ⟨['x', 'd', 'p', '.', 'f', 'r', 'a', 'g', 's'], 6, 37, false, true⟩,
  /- xdp -/ ⟨['x', 'd', 'p'], 6, 37, false, false⟩,
  /- perf_event -/ ⟨['p', 'e', 'r', 'f', '_', 'e', 'v', 'e', 'n', 't'], 7, 0, false, false⟩,
  /- lwt_in -/ ⟨['l', 'w', 't', '_', 'i', 'n'], 10, 0, false, false⟩,
  /- lwt_out -/ ⟨['l', 'w', 't', '_', 'o', 'u', 't'], 11, 0, false, false⟩,
  /- lwt_xmit -/ ⟨['l', 'w', 't', '_', 'x', 'm', 'i', 't'], 12, 0, false, false⟩,
  /- lwt_seg6local -/ ⟨['l', 'w', 't', '_', 's', 'e', 'g', '6', 'l', 'o', 'c', 'a', 'l'], 19, 0, false, false⟩,
  /- sockops -/ ⟨['s', 'o', 'c', 'k', 'o', 'p', 's'], 13, 3, false, false⟩,
  /- sk_skb/stream_parser -/ ⟨['s', 'k', '_', 's', 'k', 'b', '/', 's', 't', 'r', 'e', 'a', 'm', '_', 'p', 'a', 'r', 's', 'e', 'r'], 14, 4, false, false⟩,
  /- sk_skb/stream_verdict -/ ⟨['s', 'k', '_', 's', 'k', 'b', '/', 's', 't', 'r', 'e', 'a', 'm', '_', 'v', 'e', 'r', 'd', 'i', 'c', 't'], 14, 5, false, false⟩,
  /- sk_skb/verdict -/ ⟨['s', 'k', '_', 's', 'k', 'b', '/', 'v', 'e', 'r', 'd', 'i', 'c', 't'], 14, 38, false, false⟩,
  /- sk_skb -/ ⟨['s', 'k', '_', 's', 'k', 'b'], 14, 0, false, false⟩,
  /- sk_msg -/ ⟨['s', 'k', '_', 'm', 's', 'g'], 16, 7, false, false⟩,
  /- lirc_mode2 -/ ⟨['l', 'i', 'r', 'c', '_', 'm', 'o', 'd', 'e', '2'], 20, 16, false, false⟩,
  /- flow_dissector -/ ⟨['f', 'l', 'o', 'w', '_', 'd', 'i', 's', 's', 'e', 'c', 't', 'o', 'r'], 22, 17, false, false⟩,
  /- cgroup_skb/ingress -/ ⟨['c', 'g', 'r', 'o', 'u', 'p', '_', 's', 'k', 'b', '/', 'i', 'n', 'g', 'r', 'e', 's', 's'], 8, 0, false, false⟩,
  /- cgroup_skb/egress -/ ⟨['c', 'g', 'r', 'o', 'u', 'p', '_', 's', 'k', 'b', '/', 'e', 'g', 'r', 'e', 's', 's'], 8, 1, false, false⟩,
  /- cgroup/skb -/ ⟨['c', 'g', 'r', 'o', 'u', 'p', '/', 's', 'k', 'b'], 8, 0, false, false⟩,
  /- cgroup/sock_create -/ ⟨['c', 'g', 'r', 'o', 'u', 'p', '/', 's', 'o', 'c', 'k', '_', 'c', 'r', 'e', 'a', 't', 'e'], 9, 2, false, false⟩,
  /- cgroup/sock_release -/ ⟨['c', 'g', 'r', 'o', 'u', 'p', '/', 's', 'o', 'c', 'k', '_', 'r', 'e', 'l', 'e', 'a', 's', 'e'], 9, 34, false, false⟩,
  /- cgroup/sock -/ ⟨['c', 'g', 'r', 'o', 'u', 'p', '/', 's', 'o', 'c', 'k'], 9, 2, false, false⟩,
  /- cgroup/post_bind4 -/ ⟨['c', 'g', 'r', 'o', 'u', 'p', '/', 'p', 'o', 's', 't', '_', 'b', 'i', 'n', 'd', '4'], 9, 12, false, false⟩,
  /- cgroup/post_bind6 -/ ⟨['c', 'g', 'r', 'o', 'u', 'p', '/', 'p', 'o', 's', 't', '_', 'b', 'i', 'n', 'd', '6'], 9, 13, false, false⟩,
  /- cgroup/bind4 -/ ⟨['c', 'g', 'r', 'o', 'u', 'p', '/', 'b', 'i', 'n', 'd', '4'], 18, 8, false, false⟩,
  /- cgroup/bind6 -/ ⟨['c', 'g', 'r', 'o', 'u', 'p', '/', 'b', 'i', 'n', 'd', '6'], 18, 9, false, false⟩,
  /- cgroup/connect4 -/ ⟨['c', 'g', 'r', 'o', 'u', 'p', '/', 'c', 'o', 'n', 'n', 'e', 'c', 't', '4'], 18, 10, false, false⟩,
  /- cgroup/connect6 -/ ⟨['c', 'g', 'r', 'o', 'u', 'p', '/', 'c', 'o', 'n', 'n', 'e', 'c', 't', '6'], 18, 11, false, false⟩,
  /- cgroup/connect_unix -/ ⟨['c', 'g', 'r', 'o', 'u', 'p', '/', 'c', 'o', 'n', 'n', 'e', 'c', 't', '_', 'u', 'n', 'i', 'x'], 18, 49, false, false⟩,
  /- cgroup/sendmsg4 -/ ⟨['c', 'g', 'r', 'o', 'u', 'p', '/', 's', 'e', 'n', 'd', 'm', 's', 'g', '4'], 18, 14, false, false⟩,
  /- cgroup/sendmsg6 -/ ⟨['c', 'g', 'r', 'o', 'u', 'p', '/', 's', 'e', 'n', 'd', 'm', 's', 'g', '6'], 18, 15, false, false⟩,
  /- cgroup/sendmsg_unix -/ ⟨['c', 'g', 'r', 'o', 'u', 'p', '/', 's', 'e', 'n', 'd', 'm', 's', 'g', '_', 'u', 'n', 'i', 'x'], 18, 50, false, false⟩,
  /- cgroup/recvmsg4 -/ ⟨['c', 'g', 'r', 'o', 'u', 'p', '/', 'r', 'e', 'c', 'v', 'm', 's', 'g', '4'], 18, 19, false, false⟩,
  /- cgroup/recvmsg6 -/ ⟨['c', 'g', 'r', 'o', 'u', 'p', '/', 'r', 'e', 'c', 'v', 'm', 's', 'g', '6'], 18, 20, false, false⟩,
  /- cgroup/recvmsg_unix -/ ⟨['c', 'g', 'r', 'o', 'u', 'p', '/', 'r', 'e', 'c', 'v', 'm', 's', 'g', '_', 'u', 'n', 'i', 'x'], 18, 51, false, false⟩,
  /- cgroup/getpeername4 -/ ⟨['c', 'g', 'r', 'o', 'u', 'p', '/', 'g', 'e', 't', 'p', 'e', 'e', 'r', 'n', 'a', 'm', 'e', '4'], 18, 29, false, false⟩,
  /- cgroup/getpeername6 -/ ⟨['c', 'g', 'r', 'o', 'u', 'p', '/', 'g', 'e', 't', 'p', 'e', 'e', 'r', 'n', 'a', 'm', 'e', '6'], 18, 30, false, false⟩,
  /- cgroup/getpeername_unix -/ ⟨['c', 'g', 'r', 'o', 'u', 'p', '/', 'g', 'e', 't', 'p', 'e', 'e', 'r', 'n', 'a', 'm', 'e', '_', 'u', 'n', 'i', 'x'], 18, 52, false, false⟩,
  /- cgroup/getsockname4 -/ ⟨['c', 'g', 'r', 'o', 'u', 'p', '/', 'g', 'e', 't', 's', 'o', 'c', 'k', 'n', 'a', 'm', 'e', '4'], 18, 31, false, false⟩,
  /- cgroup/getsockname6 -/ ⟨['c', 'g', 'r', 'o', 'u', 'p', '/', 'g', 'e', 't', 's', 'o', 'c', 'k', 'n', 'a', 'm', 'e', '6'], 18, 32, false, false⟩,
  /- cgroup/getsockname_unix -/ ⟨['c', 'g', 'r', 'o', 'u', 'p', '/', 'g', 'e', 't', 's', 'o', 'c', 'k', 'n', 'a', 'm', 'e', '_', 'u', 'n', 'i', 'x'], 18, 53, false, false⟩,
  /- cgroup/sysctl -/ ⟨['c', 'g', 'r', 'o', 'u', 'p', '/', 's', 'y', 's', 'c', 't', 'l'], 23, 18, false, false⟩,
  /- cgroup/getsockopt -/ ⟨['c', 'g', 'r', 'o', 'u', 'p', '/', 'g', 'e', 't', 's', 'o', 'c', 'k', 'o', 'p', 't'], 25, 21, false, false⟩,
  /- cgroup/setsockopt -/ ⟨['c', 'g', 'r', 'o', 'u', 'p', '/', 's', 'e', 't', 's', 'o', 'c', 'k', 'o', 'p', 't'], 25, 22, false, false⟩,
  /- cgroup/dev -/ ⟨['c', 'g', 'r', 'o', 'u', 'p', '/', 'd', 'e', 'v'], 15, 6, false, false⟩,
  /- struct_ops+ -/ ⟨['s', 't', 'r', 'u', 'c', 't', '_', 'o', 'p', 's', '+'], 27, 0, false, false⟩,
  /- struct_ops.s+ -/ ⟨['s', 't', 'r', 'u', 'c', 't', '_', 'o', 'p', 's', '.', 's', '+'], 27, 0, true, false⟩,
  /- sk_lookup -/ ⟨['s', 'k', '_', 'l', 'o', 'o', 'k', 'u', 'p'], 30, 36, false, false⟩,
  /- netfilter -/ ⟨['n', 'e', 't', 'f', 'i', 'l', 't', 'e', 'r'], 32, 45, false, false⟩
]

end Ebpf.Sections
