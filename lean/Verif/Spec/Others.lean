import Verif.Spec.Config

/-! # Specification: which parts of a configuration file matter for a chosen design (C97) -/
namespace Boxes.Spec
open Boxes

/-- What matters in a configuration file when the design is chosen by the name `n`: the parents, and the designs that have this name. -/
def Matters (n : Str) : Decl → Bool
  | .parent _ => true
  | .box name aliases _ _ => (name :: aliases).any (fun k => decide (SameName n k))

/-- Two configuration files that differ only in designs that do not have the name `n` -/
def SameForName (n : Str) (decls decls' : List Decl) : Prop := decls.filter (Matters n) = decls'.filter (Matters n)

/-- All the configuration files on two machines are the same but for designs that do not have the name. -/
def SameFiles (n : Str) (contents contents' : Bxs → Option (List Decl)) : Prop :=
  ∀ file, match contents file, contents' file with
    | none, none => True
    | some decls, some decls' => SameForName n decls decls'
    | _, _ => False

end Boxes.Spec
