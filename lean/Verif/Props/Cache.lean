import Verif.Lemmas.Cache

/-!
# Properties C44 and C50: blank neighbours and empty sides
-/
namespace Boxes
open Spec ShapeName
set_option linter.unusedSimpArgs false

/-- C44: in any sequence of questions, each is answered as if it were the first. -/
theorem C44_history (db : CharDb) (d : Design) (hu : Unasked d) (qs : List Question) {as : List Bool}
    (h : askAll db d qs = .ok as) (k : Nat) (q : Question) (hk : qs[k]? = some q) :
    ∃ a, as[k]? = some a ∧ askFresh db d q = .ok a :=
  (askAll_coherent db hu qs d (coherent_refl db hu) k q hk).1 as h

/-- C44: a history only runs into undefined behaviour if one of its questions does so on its own. -/
theorem C44_history_ub (db : CharDb) (d : Design) (hu : Unasked d) (qs : List Question) (h : askAll db d qs = .ub) :
    ∃ q ∈ qs, askFresh db d q = .ub := by
  cases hq : qs with
  | nil => subst hq; simp [askAll] at h
  | cons q qs' =>
    rw [← hq]
    exact (askAll_coherent db hu qs d (coherent_refl db hu) 0 q (by rw [hq]; rfl)).2 h

/-- The shapes left (right) of a shape that decide the answer, if any: those of its horizontal side.  `none`: the answer is
fixed, because the shape is on a vertical side. -/
def neighbours (n : ShapeName) (leftward : Bool) : Option (List ShapeName) :=
  match n, leftward with
  | NNW, true => some [NW] | N, true => some [NW, NNW] | NNE, true => some [NW, NNW, N] | NE, true => some [NW, NNW, N, NNE]
  | SSW, true => some [SW] | S, true => some [SW, SSW] | SSE, true => some [SW, SSW, S] | SE, true => some [SW, SSW, S, SSE]
  | NNE, false => some [NE] | N, false => some [NNE, NE] | NNW, false => some [N, NNE, NE] | NW, false => some [NNW, N, NNE, NE]
  | SSE, false => some [SE] | S, false => some [SSE, SE] | SSW, false => some [S, SSE, SE] | SW, false => some [SSW, S, SSE, SE]
  | _, _ => none

/-- shape at the left (right) end of the lines of the box -/
def AtEdge (n : ShapeName) (leftward : Bool) : Prop :=
  n ∈ (if leftward then [NW, WNW, W, WSW, SW] else [NE, ENE, E, ESE, SE])

/-- C44: the answer.  At the edge of the box there is nothing but blanks further out; a middle shape of the opposite vertical
side has the text there, so the answer is no; on a horizontal side the answer is yes exactly if line `i` of all shapes that
exist on that hand is blank. -/
theorem C44_answer (db : CharDb) (d : Design) (hu : Unasked d) (hn : ∀ n, (d.shape n).name = n) (n : ShapeName) (i : Nat)
    (left : Bool) (hi : i < (d.shape n).height) :
    (AtEdge n left → askFresh db d ⟨n, i, left⟩ = .ok true) ∧
    (¬ AtEdge n left → neighbours n left = none → askFresh db d ⟨n, i, left⟩ = .ok false) ∧
    ∀ l, neighbours n left = some l →
      (∀ m ∈ l, (d.shape m).lines ≠ [] → i < (d.shape m).lines.length) →
      ∃ a, askFresh db d ⟨n, i, left⟩ = .ok a ∧
        (a = true ↔ ∀ m ∈ l, ∀ b, (d.shape m).lines[i]? = some b → b.isBlankStr db = true) := by
  have hfresh : askFresh db d ⟨n, i, left⟩ = isBlankwardCalc db d n i left := by
    unfold askFresh isBlankward
    simp only
    rw [if_neg (by omega)]
    have hnone : (d.shape n).cache left = none := by
      obtain ⟨h1, h2⟩ := hu n
      cases left
      · exact h2
      · exact h1
    simp only [hnone, Option.bind_none, Option.getD_none, List.length_replicate, hi, if_true]
    cases isBlankwardCalc db d n i left <;> rfl
  have hall : ∀ (l : List ShapeName), (∀ m ∈ l, (d.shape m).lines ≠ [] → i < (d.shape m).lines.length) →
      ∃ a, allBlankAt db d.shape i l = .ok a ∧
        (a = true ↔ ∀ m ∈ l, ∀ b, (d.shape m).lines[i]? = some b → b.isBlankStr db = true) := by
    intro l
    induction l with
    | nil => intro _; exact ⟨true, rfl, by simp⟩
    | cons t l ih =>
      intro hl
      obtain ⟨a, h1, h2⟩ := ih (fun m hm => hl m (by simp [hm]))
      unfold allBlankAt
      by_cases he : (d.shape t).lines = []
      · rw [if_pos (by simp [he]), h1]
        refine ⟨a, rfl, ?_⟩
        rw [h2]
        constructor
        · intro h m hm b hb
          rcases List.mem_cons.1 hm with rfl | hm
          · rw [he] at hb; simp at hb
          · exact h m hm b hb
        · intro h m hm; exact h m (by simp [hm])
      · rw [if_neg (by simp [he])]
        have hlt := hl t (by simp) he
        rw [List.getElem?_eq_getElem hlt, Res.get_some, Res.ok_bind]
        by_cases hb : ((d.shape t).lines[i]).isBlankStr db = true
        · rw [if_neg (by simp [hb]), h1]
          refine ⟨a, rfl, ?_⟩
          rw [h2]
          constructor
          · intro h m hm b hb'
            rcases List.mem_cons.1 hm with rfl | hm
            · rw [List.getElem?_eq_getElem hlt] at hb'
              obtain rfl := Option.some.inj hb'
              exact hb
            · exact h m hm b hb'
          · intro h m hm; exact h m (by simp [hm])
        · rw [if_pos (by simp [hb])]
          refine ⟨false, rfl, ?_⟩
          constructor
          · intro h; cases h
          · intro h; exact absurd (h t (by simp) _ (List.getElem?_eq_getElem hlt)) hb
  rw [hfresh]
  unfold isBlankwardCalc
  rw [hn n]
  cases n <;> cases left <;>
    refine ⟨fun h => ?_, fun h1 h2 => ?_, fun l hl hlen => ?_⟩ <;>
    first
      | rfl
      | exact absurd h (by unfold AtEdge; decide)
      | exact absurd (show AtEdge _ _ by unfold AtEdge; decide) h1
      | (simp [neighbours] at h2; done)
      | (simp [neighbours] at hl; done)
      | (simp only [neighbours, Option.some.injEq] at hl; subst hl; exact hall _ hlen)

example : Unasked sampleDesign ∧ ∀ n, (sampleDesign.shape n).name = n :=
  ⟨by intro n; cases n <;> exact ⟨rfl, rfl⟩, by intro n; cases n <;> rfl⟩
example : askAll sampleDb sampleDesign [⟨.N, 0, true⟩, ⟨.W, 0, true⟩, ⟨.N, 0, true⟩, ⟨.N, 0, false⟩] =
    .ok [false, true, false, false] := by decide

/-- C50: a side is empty exactly if all its shapes are missing or blank. -/
theorem C50_empty_side {db : CharDb} (hdb : Sane db) {d : Design} (hg : ∀ n, Present (d.shape n) → GoodShape db (d.shape n))
    (side : List ShapeName) : emptySide d.shape side = true ↔
      ∀ n ∈ side, Present (d.shape n) → ∀ b ∈ (d.shape n).lines, ∀ v, Text b.memory v →
        ∀ c ∈ v, Blank db c ∨ Spec.width db c = 0 :=
  emptySide_iff hdb hg side

example : emptySide sampleDesign.shape eastSide = false ∧
    emptySide (fun n => if n ∈ eastSide then { name := n } else sampleDesign.shape n) eastSide = true := by decide

end Boxes
