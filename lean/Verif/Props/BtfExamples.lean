import Verif.Props.BtfC26
/-! # Concrete graphs for C26, and what its hypotheses exclude -/
namespace Ebpf.Btf
open Ebpf.BtfSpec

/-- A cyclic graph with tags: `struct n { struct n *x (tag "m"); int y : 5; } (tag "s")`, `int (struct n *p)`, a function of this type with a tagged parameter, a 64-bit enum. -/
def rtGraph : Graph (Fin 7)
  | 0 => .void
  | 1 => .int [0x69] 4 1
  | 2 => .struct [0x6e] 16 [⟨[0x78], 3, 0, 0, [[0x6d]]⟩, ⟨[0x79], 1, 64, 5, []⟩] [[0x73]]
  | 3 => .ptr 2
  | 4 => .funcProto 1 [⟨[0x70], 3⟩]
  | 5 => .func [0x66] 4 1 [] [[[0x61]]]
  | 6 => .enum [0x65] 8 true [⟨[0x41], -1⟩]

private def rtAll : List (Fin 7) := [0, 1, 2, 3, 4, 5, 6]

private theorem rt_not_reach : ¬ Reach (children rtGraph) (.obj 4) (.obj 5) := by
  intro h
  have := reach_closed (children rtGraph) [.obj 4, .obj 1, .obj 3, .obj 2, .tag 2 [0x6d] 0 0, .tag 2 [0x73] (-1) 0]
    (by unfold Closed; decide) h (by decide)
  revert this; decide

private theorem rt_ok : ∀ r ∈ rtAll, rtGraph r ≠ .void → Writable rtGraph r ∧ Storable (rtGraph r) := by
  intro r hr hv
  have hr : r = 0 ∨ r = 1 ∨ r = 2 ∨ r = 3 ∨ r = 4 ∨ r = 5 ∨ r = 6 := by revert hr; revert r; decide
  rcases hr with rfl | rfl | rfl | rfl | rfl | rfl | rfl
  · exact absurd rfl hv
  all_goals refine ⟨⟨?_, ?_, ?_, ?_⟩, ⟨?_, ?_⟩⟩
  all_goals try (simp [rtGraph, Fits, MembersFit, texts, Node.name]; done)
  all_goals try (intros; rename_i h; simp [rtGraph] at h; done)
  · intro n t l ts pts h _
    simp only [rtGraph, Node.func.injEq] at h
    obtain ⟨rfl, rfl, rfl, rfl, rfl⟩ := h
    exact ⟨⟨1, [⟨[0x70], 3⟩], rfl⟩, rt_not_reach⟩

/-- Non-vacuity of `marshal_roundtrip_partial`. -/
example (o : Opts) (bo : ByteOrder) := marshal_roundtrip_partial o bo rtGraph [5, 2, 6] rtAll id (by decide) (by decide) rt_ok (by decide) (fun l => .refl l)

/-- The same computed: the function is found under the ID 1, at address 1, and its prototype is at 2. -/
example : ((marshal {} .little rtGraph 30 (addAllTypes rtGraph .empty [5, 2, 6]).2 id).bind loadRawSpec).map
    (fun d => ((d.run 30 .init [1]).2, (d.run 30 .init [1]).1.heap[1]?)) = some ([some 1], some (.func [0x66] 2 1 [] [[[0x61]]])) := by decide +kernel

/-- 65536 members, parameters, values or variables do not fit the header: the reader would see none. -/
theorem vlen_wraps : ((⟨0, 0, 0⟩ : BtfType).setVlen 65536).vlen = 0 := by decide

/-- `struct { int(33 bytes) x; }`. -/
def wideGraph : Graph (Fin 2)
  | 0 => .int [0x69] 33 0
  | 1 => .struct [] 33 [⟨[0x78], 0, 0, 0, []⟩] []

/-- Integers of more than 31 bytes are excluded by `Fits`: the bits of an integer are written as one byte, 33 * 8 becomes 8, and a member of this type is read as a bitfield of
8 bits. -/
theorem wide_int_becomes_bitfield :
    ((marshal {} .little wideGraph 9 (addAllTypes wideGraph .empty [1]).2 id).bind loadRawSpec).map (fun d => (d.run 9 .init [1]).1.heap) =
      some [.void, .struct [] 33 [⟨[0x78], 2, 0, 8, []⟩] [], .int [0x69] 33 0] := by decide +kernel

/-- btf/marshal.go:218-226: with strings, no types and `PreventNoTypeFound`, the dummy type is put on the list of pending types without an ID, and gets one when it is written, which
puts it on the list again. -/
theorem dummy_written_twice : (deflatePending { preventNoTypeFound := true } .little (fun _ : Unit => Node.int [] 0 0) 5 5 (initEnc .empty [()])).map (fun r => r.1.map (·.1)) =
    some [.obj (), .obj ()] := by decide +kernel

/-- A blob whose first type is a struct with members of type 2 and 9; type 2 is a pointer to the struct, type 9 does not exist. -/
def brokenDec : Option Dec :=
  newDecoder
    ((((⟨0, 0, 16⟩ : BtfType).setKind kindStruct).setVlen 2).encode .little ++
      (ByteOrder.little.put32 0 ++ ByteOrder.little.put32 2 ++ ByteOrder.little.put32 0) ++
      (ByteOrder.little.put32 0 ++ ByteOrder.little.put32 9 ++ ByteOrder.little.put32 64) ++
      ((⟨0, 0, 1⟩ : BtfType).setKind kindPointer).encode .little)
    .little ⟨none, [0]⟩

/-- The result of `TypeByID` depends on earlier calls if the blob is invalid: type 2 cannot be loaded, but after a failed attempt to load type 1 it can, and points at
a struct without members. -/
theorem history_dependent_after_failure :
    brokenDec.map (fun d => ((d.run 9 .init [2]).2, (d.run 9 .init [1, 2]).2, (d.run 9 .init [1, 2]).1.heap[2]?, (d.run 9 .init [1, 2]).1.heap[1]?)) =
      some ([none], [none, some 2], some (.ptr 1), some (.struct [] 16 [] [])) := by decide +kernel

/-- A function with a tag on itself only is read with an (empty) list of tags for each parameter. -/
example : paramTagsSeen 2 [[0x74]] [] = [[], []] := by decide

end Ebpf.Btf
