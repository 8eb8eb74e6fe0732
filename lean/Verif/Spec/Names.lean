import Verif.Spec.Config

/-! # Specification: the names of the designs in a configuration file (C91) -/
namespace Boxes.Spec
open Boxes

/-- two names: every design in the file that has one of them has the other, too -/
def SameDesigns (n n' : Str) (decls : List Decl) : Prop :=
  ∀ name aliases items ne, Decl.box name aliases items ne ∈ decls → ((∃ k ∈ name :: aliases, SameName n k) ↔ ∃ k ∈ name :: aliases, SameName n' k)

/-- no design of a file has the name -/
def Unnamed (n : Str) (decls : List Decl) : Prop :=
  ∀ name aliases items ne, Decl.box name aliases items ne ∈ decls → ∀ k ∈ name :: aliases, ¬ SameName n k

end Boxes.Spec
