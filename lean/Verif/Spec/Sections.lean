import Verif.Model.ElfSectionTable
/-!
# Specification: which section names belong to a pattern

Independent of the order of the table: the most specific pattern counts.
-/
namespace Ebpf.SectionsSpec
open Ebpf.Sections

/-- `SEC("type+")` stands for `type` and `type/extra`; any other pattern for all names beginning with it. -/
inductive Matches : List Char → List Char → List Char → Prop where
  | exact {b} : Matches (b ++ ['+']) b []
  | extra {b x} : Matches (b ++ ['+']) (b ++ '/' :: x) x
  | plain {p r} : (∀ b, p ≠ b ++ ['+']) → Matches p (p ++ r) []

/-- A question mark in front of a section name only says that the program is optional. `bare` is the name without it. -/
inductive Bare : List Char → List Char → Prop where
  | optional {bare} : Bare ('?' :: bare) bare
  | required {bare} : (∀ r, bare ≠ '?' :: r) → Bare bare bare

/-- `d` is the definition for `name`: it matches, and no longer pattern of the table does. -/
structure Resolves (table : List Def) (name : List Char) (d : Def) (extra : List Char) : Prop where
  mem : d ∈ table
  ok : Matches d.pattern name extra
  most : ∀ e ∈ table, ∀ x, Matches e.pattern name x → e.pattern.length ≤ d.pattern.length

end Ebpf.SectionsSpec
