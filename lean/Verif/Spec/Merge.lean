import Verif.Spec.Config
import Verif.Model.Merge

/-!
# Specification: configuration files and their parents
-/
namespace Boxes.Spec

/-- The list on the right has the first one of all elements of the list on the left that are the same (`R`), in their order: going
through the list, an element is taken over unless one before it was the same. -/
inductive Firsts {α : Type} (R : α → α → Prop) : List α → List α → Prop
  | nil : Firsts R [] []
  | take {all result : List α} (d : α) : Firsts R all result → (∀ e ∈ all, ¬ R e d) → Firsts R (all ++ [d]) (result ++ [d])
  | leave {all result : List α} (d : α) : Firsts R all result → (∃ e ∈ all, R e d) → Firsts R (all ++ [d]) result

/-- one configuration file that was read, with what it contains -/
structure Visit where
  file : Bxs
  designs : List DesignDef
  parents : List Bxs

/-- designs with the same name -/
def SameDesign (a b : DesignDef) : Prop := SameName a.name b.name

/-- the same file name -/
def SameFile (a b : Bxs) : Prop := a.memory = b.memory

end Boxes.Spec
