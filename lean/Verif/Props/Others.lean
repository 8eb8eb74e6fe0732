import Verif.Props.Names
import Verif.Lemmas.Others

/-! # C97: Other designs do not matter for the one that is chosen -/
namespace Boxes
open Spec

/-- C97: If a design is chosen, the other designs in the configuration files do not matter, whatever they contain. -/
theorem C97_others (m : Machine) (fuel : Nat) {argv : List Str} {pre post : List Option'} {n : Str} {files : List Str}
    (h : Reading argv (pre ++ .design n :: post) files) (hlast : ∀ s, .design s ∉ post) (contents' : Bxs → Option (List Decl))
    (hsame : SameFiles n m.contents contents') :
    boxesMain { m with contents := contents' } argv fuel = boxesMain m argv fuel := by
  rw [reading_main h, reading_main h, wholeProgram_after, wholeProgram_after]
  simp only
  cases hp : processCommandline m.canRead m.canWrite none (pre ++ .design n :: post) files with
  | none => rfl
  | some b =>
    simp only
    unfold afterCommandline
    simp only
    cases hh : b.help with
    | true => rfl
    | false =>
    cases hv : b.version with
    | true => rfl
    | false =>
    have hd : b.design = some n := by
      unfold processCommandline at hp
      rw [if_neg (by simp)] at hp
      obtain ⟨⟨a, done⟩, ho, hp⟩ := Option.bind_eq_some_iff.1 hp
      cases done with
      | true =>
        have := optionLoop_done _ _ _ ho
        simp only [if_true, Option.some.injEq] at hp
        subst hp
        rcases this with k | k <;> simp [k] at hh hv
      | false =>
        simp only [Bool.false_eq_true, if_false] at hp
        rw [inputOutputFiles_keeps hp]
        show a.design = some n
        exact lastDesign ho hlast
    simp only [loadDesigns_others hd hsame, Bool.false_eq_true, if_false]
    rfl

/-! ## Examples -/

/-- the configuration file of the sample machine with a broken design in front, another one behind, and the design `dots` left out -/
def otherDesigns (b : Bxs) : Option (List Decl) :=
  if b.memory = lit "/h/.config/boxes/boxes-config" then
    some [.box (lit "broken") [lit "b"] [.bad] [], .box (lit "frame") [lit "fr"] frameItems (lit "frame"), .box (lit "more") [] minimalItems (lit "more")]
  else none

theorem otherDesigns_same : SameFiles (lit "fr") sampleMachine.contents otherDesigns := by
  intro file
  show match (if file.memory = lit "/h/.config/boxes/boxes-config" then
      some [Decl.box (lit "dots") [lit "dt"] minimalItems (lit "dots"), .box (lit "frame") [lit "fr"] frameItems (lit "frame")] else none), otherDesigns file with
    | none, none => True
    | some decls, some decls' => SameForName (lit "fr") decls decls'
    | _, _ => False
  unfold otherDesigns
  by_cases h : file.memory = lit "/h/.config/boxes/boxes-config"
  · rw [if_pos h, if_pos h]
    have h1 : ∀ it ne, Matters (lit "fr") (.box (lit "dots") [lit "dt"] it ne) = false :=
      fun _ _ => (by decide +kernel : ((lit "dots") :: [lit "dt"]).any (fun k => decide (SameName (lit "fr") k)) = false)
    have h2 : ∀ it ne, Matters (lit "fr") (.box (lit "frame") [lit "fr"] it ne) = true :=
      fun _ _ => (by decide +kernel : ((lit "frame") :: [lit "fr"]).any (fun k => decide (SameName (lit "fr") k)) = true)
    have h3 : ∀ it ne, Matters (lit "fr") (.box (lit "broken") [lit "b"] it ne) = false :=
      fun _ _ => (by decide +kernel : ((lit "broken") :: [lit "b"]).any (fun k => decide (SameName (lit "fr") k)) = false)
    have h4 : ∀ it ne, Matters (lit "fr") (.box (lit "more") [] it ne) = false :=
      fun _ _ => (by decide +kernel : ((lit "more") :: []).any (fun k => decide (SameName (lit "fr") k)) = false)
    simp [SameForName, List.filter_cons, h1, h2, h3, h4]
  · rw [if_neg h, if_neg h]
    trivial

example : boxesMain { sampleMachine with contents := otherDesigns } [lit "-d", lit "fr"] 20 =
    some (.ok (.output none (lit "  +--*\n  |ab!\n  |c !\n  +==+\n"))) := by
  rw [C97_others sampleMachine 20 (pre := []) (post := []) (reads_design (lit "fr")) (by simp) otherDesigns otherDesigns_same]
  decide +kernel

end Boxes
