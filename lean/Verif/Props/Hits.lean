import Verif.Spec.Hits
import Verif.Props.Match
import Verif.Props.Cache
import Verif.Props.Detect
import Verif.Spec.Details

/-!
# Property C66: how often a design is found in the input
-/
namespace Boxes
open Spec ShapeName
set_option linter.unusedSimpArgs false

namespace Spec

theorem NumberOf.congr {α : Type} {P Q : α → Prop} {n : Nat} (h : NumberOf P n) (hq : ∀ x, Q x ↔ P x) : NumberOf Q n := by
  obtain ⟨l, h1, h2, h3⟩ := h
  exact ⟨l, h1, fun x => by rw [h2, hq], h3⟩

theorem NumberOf.zero {α : Type} {P : α → Prop} (h : ∀ x, ¬ P x) : NumberOf P 0 :=
  ⟨[], by simp, by simpa using h, rfl⟩

theorem NumberOf.one {α : Type} {P : α → Prop} (a : α) (h : ∀ x, P x ↔ x = a) : NumberOf P 1 :=
  ⟨[a], by simp, by simpa using fun x => (h x).symm, rfl⟩

theorem NumberOf.union {α : Type} {P Q R : α → Prop} {m n : Nat} (hp : NumberOf P m) (hq : NumberOf Q n)
    (hr : ∀ x, R x ↔ P x ∨ Q x) (hd : ∀ x, P x → Q x → False) : NumberOf R (m + n) := by
  obtain ⟨l, h1, h2, h3⟩ := hp
  obtain ⟨l', h1', h2', h3'⟩ := hq
  refine ⟨l ++ l', ?_, fun x => by rw [List.mem_append, h2, h2', hr], by simp [h3, h3']⟩
  rw [List.nodup_append]
  refine ⟨h1, h1', ?_⟩
  intro a ha b hb hab
  subst hab
  exact hd a ((h2 a).1 ha) ((h2' a).1 hb)

theorem NumberOf.map {α β : Type} {P : α → Prop} {Q : β → Prop} {n : Nat} (f : α → β) (hf : ∀ x y, f x = f y → x = y)
    (hp : NumberOf P n) (hq : ∀ y, Q y ↔ ∃ x, P x ∧ y = f x) : NumberOf Q n := by
  obtain ⟨l, h1, h2, h3⟩ := hp
  refine ⟨l.map f, ?_, ?_, by simp [h3]⟩
  · unfold List.Nodup
    rw [List.pairwise_map]
    exact h1.imp (fun hab e => hab (hf _ _ e))
  · intro y
    rw [List.mem_map, hq]
    exact ⟨fun ⟨x, h, e⟩ => ⟨x, (h2 x).1 h, e.symm⟩, fun ⟨x, h, e⟩ => ⟨x, (h2 x).2 h, e.symm⟩⟩

/-- the number is determined -/
theorem NumberOf.unique {α : Type} {P : α → Prop} {m n : Nat} (hm : NumberOf P m) (hn : NumberOf P n) : m = n := by
  obtain ⟨l, h1, h2, rfl⟩ := hm
  obtain ⟨l', h1', h2', rfl⟩ := hn
  have : l.Perm l' := by
    rw [List.perm_ext_iff_of_nodup h1 h1']
    intro x; rw [h2, h2']
  exact this.length_eq

theorem NumberOf.step {H : Nat → Prop} {k n r : Nat} (b : Bool) (hb : b = true ↔ H k)
    (h : NumberOf (fun x => k + 1 ≤ x ∧ x < k + 1 + n ∧ H x) r) :
    NumberOf (fun x => k ≤ x ∧ x < k + (n + 1) ∧ H x) ((if b then 1 else 0) + r) := by
  have h1 : NumberOf (fun x => x = k ∧ H x) (if b then 1 else 0) := by
    cases b with
    | true => exact NumberOf.one k (fun x => ⟨fun e => e.1, fun e => ⟨e, by rw [e]; exact hb.1 rfl⟩⟩)
    | false =>
      refine NumberOf.zero ?_
      rintro x ⟨rfl, hx⟩
      exact absurd (hb.2 hx) (by simp)
  refine NumberOf.union h1 h ?_ ?_
  · intro x
    constructor
    · rintro ⟨a, b, c⟩
      by_cases hx : x = k
      · exact .inl ⟨hx, c⟩
      · exact .inr ⟨by omega, by omega, c⟩
    · rintro (⟨rfl, c⟩ | ⟨a, b, c⟩)
      · exact ⟨by omega, by omega, c⟩
      · exact ⟨by omega, by omega, c⟩
  · rintro x ⟨rfl, _⟩ ⟨h, _⟩; omega

theorem NumberOf.rows {H : Nat → Nat → Prop} {j n x y : Nat} (hx : NumberOf (H j) x)
    (hy : NumberOf (fun p : Nat × Nat => j + 1 ≤ p.1 ∧ p.1 < j + 1 + n ∧ H p.1 p.2) y) :
    NumberOf (fun p : Nat × Nat => j ≤ p.1 ∧ p.1 < j + (n + 1) ∧ H p.1 p.2) (x + y) := by
  have hx' : NumberOf (fun p : Nat × Nat => p.1 = j ∧ H p.1 p.2) x := by
    refine NumberOf.map (fun k => (j, k)) (fun a b e => (Prod.mk.inj e).2) hx ?_
    rintro ⟨a, b⟩
    constructor
    · rintro ⟨rfl, h⟩; exact ⟨b, h, rfl⟩
    · rintro ⟨k, h, e⟩; obtain ⟨rfl, rfl⟩ := Prod.mk.inj e; exact ⟨rfl, h⟩
  refine NumberOf.union hx' hy ?_ ?_
  · rintro ⟨a, b⟩
    simp only
    constructor
    · rintro ⟨h1, h2, h3⟩
      by_cases h : a = j
      · exact .inl ⟨h, h3⟩
      · exact .inr ⟨by omega, by omega, h3⟩
    · rintro (⟨rfl, h⟩ | ⟨h1, h2, h3⟩)
      · exact ⟨by omega, by omega, h⟩
      · exact ⟨by omega, by omega, h3⟩
  · rintro ⟨a, b⟩ ⟨h1, _⟩ ⟨h2, _⟩
    simp only at h1 h2; omega

end Spec

/-! ## the texts that are compared -/

/-- all shapes further out on that hand are blank in line `j` -/
def bareB (db : CharDb) (d : Design) (n : ShapeName) (j : Nat) (left : Bool) : Bool :=
  (outward n left).all fun m => match (d.shape m).lines[j]? with
    | some b => b.isBlankStr db
    | none => true

/-- on which hands blanks are dropped -/
def dropsOf (db : CharDb) (d : Design) (n : ShapeName) (j : Nat) : Bool × Bool :=
  match n with
  | NW | SW | WNW | W | WSW => (true, false)
  | NE | SE => (false, true)
  | ENE | E | ESE => (true, true)
  | _ => (bareB db d n j true, bareB db d n j false)

/-- the text of a shape line that is looked for -/
def cmpShape (db : CharDb) (d : Design) (c : CompType) (n : ShapeName) (j : Nat) : Option Str :=
  match (d.shape n).lines[j]? with
  | none => none
  | some b =>
    if b.isBlankStr db then none
    else match prepareCompShape d n j c (dropsOf db d n j).1 (dropsOf db d n j).2 with
      | .ok t => some t
      | _ => none

/-- the text of an input line from its first character on -/
def cmpLine (lines : List Line) (c : CompType) (k : Nat) : Str :=
  match prepareCompInput lines k true c with
  | .ok t => t
  | _ => []

/-- the text of an input line up to its last character -/
def cmpEnd (lines : List Line) (c : CompType) (k : Nat) : Str :=
  match (lines[k]?).bind (·.text) with
  | none => []
  | some b =>
    if c.skipsInput then (b.filterVisible.getD []).take (b.vis - b.trailing)
    else b.memory.take ((b.firstChar[b.vis - b.trailing]?).getD 0)

/-- the scene of a comparison -/
def sceneOf (db : CharDb) (d : Design) (lines : List Line) (c : CompType) : Scene :=
  { height := fun n => (d.shape n).height, elastic := fun n => (d.shape n).elastic, present := fun n => Present (d.shape n),
    numLines := lines.length,
    noTop := (determineEmptySides d).top = true, noRight := (determineEmptySides d).right = true,
    noBottom := (determineEmptySides d).bottom = true, noLeft := (determineEmptySides d).left = true,
    shapeText := cmpShape db d c, lineText := cmpLine lines c, lineEnd := cmpEnd lines c }

theorem cmpLine_eq {lines : List Line} {c : CompType} {k : Nat} {t : Str} (h : prepareCompInput lines k true c = .ok t) :
    cmpLine lines c k = t := by unfold cmpLine; rw [h]

theorem cmpShape_some {db : CharDb} {d : Design} {c : CompType} {n : ShapeName} {j : Nat} {b : Bxs} {t : Str}
    (hb : (d.shape n).lines[j]? = some b) (hn : ¬ b.isBlankStr db = true)
    (h : prepareCompShape d n j c (dropsOf db d n j).1 (dropsOf db d n j).2 = .ok t) : cmpShape db d c n j = some t := by
  unfold cmpShape
  rw [hb]
  simp only
  rw [if_neg hn, h]

theorem cmpShape_none {db : CharDb} {d : Design} {c : CompType} {n : ShapeName} {j : Nat} {b : Bxs}
    (hb : (d.shape n).lines[j]? = some b) (hn : b.isBlankStr db = true) : cmpShape db d c n j = none := by
  unfold cmpShape
  rw [hb]
  simp only
  rw [if_pos hn]

theorem Res.get_eq_ok {α : Type} {o : Option α} {a : α} : Res.get o = .ok a ↔ o = some a := by
  cases o <;> simp [Res.get]

/-- does the text begin with `t`, if there is one? -/
def endTest (t : Str) : Option Str → Bool
  | some s => strnEq t.length s t
  | none => false

/-- the test of `find_east_corner` and `find_vertical_east` -/
theorem right_test {lines : List Line} {c : CompType} {k : Nat} {t : Str} {p : Option Str}
    (hg : ∀ b, (lines[k]?).bind (·.text) = some b → ∃ v, b.filterVisible = some v ∧ b.vis ≤ v.length ∧
      ∀ (x q : Nat), b.firstChar[x]? = some q → q ≤ b.memory.length) (hk : k < lines.length)
    (h : prepareCompInputRight lines k c t.length = .ok p) :
    endTest t p = true ↔ t <:+ cmpEnd lines c k := by
  have key : ∀ (w : Str) (x : Nat), x ≤ w.length →
      (endTest t (if t.length ≤ x then some (w.drop (x - t.length)) else none) = true ↔ t <:+ w.take x) := by
    intro w x hx
    by_cases hl : t.length ≤ x
    · rw [if_pos hl]
      simp only [endTest]
      rw [strnEq_prefix]
      constructor
      · rintro ⟨r, hr⟩
        refine ⟨w.take (x - t.length), ?_⟩
        have h1 : w = w.take (x - t.length) ++ (t ++ r) := by rw [hr]; exact (List.take_append_drop _ _).symm
        have h2 : (w.take (x - t.length)).length = x - t.length := by simp; omega
        generalize w.take (x - t.length) = a at h1 h2
        subst h1
        rw [← List.append_assoc, List.take_append_of_le_length (by simp; omega), List.take_of_length_le (by simp; omega)]
      · rintro ⟨a, ha⟩
        have h1 : w = (a ++ t) ++ w.drop x := by rw [ha]; exact (List.take_append_drop _ _).symm
        have h2 : (a ++ t).length = x := by rw [ha]; simp; omega
        have h3 : x - t.length = a.length := by simp at h2; omega
        refine ⟨w.drop x, ?_⟩
        rw [h3]
        generalize w.drop x = r at h1
        rw [h1, List.append_assoc, List.drop_left]
    · rw [if_neg hl]
      simp only [endTest, Bool.false_eq_true, false_iff]
      rintro ⟨a, ha⟩
      have := congrArg List.length ha
      simp at this; omega
  unfold prepareCompInputRight at h
  rw [if_neg (by omega)] at h
  simp only [Res.bind_eq_ok] at h
  obtain ⟨l, hl, b, hb, x, hx, h⟩ := h
  have hbk : (lines[k]?).bind (·.text) = some b := by
    rw [Res.get_eq_ok] at hl hb
    rw [hl]; exact hb
  obtain ⟨v, g1, g2, g3⟩ := hg b hbk
  have hxv : x = b.vis - b.trailing := by
    unfold Res.sub at hx
    split at hx
    · exact (Res.ok.inj hx).symm
    · cases hx
  unfold cmpEnd
  rw [hbk]
  simp only
  by_cases hs : c.skipsInput = true
  · rw [if_pos hs] at h ⊢
    simp only [Res.bind_eq_ok] at h
    obtain ⟨v', hv', h⟩ := h
    rw [Res.get_eq_ok, g1] at hv'
    obtain rfl := Option.some.inj hv'
    obtain rfl := Res.ok.inj h
    rw [g1, Option.getD_some, ← hxv]
    exact key v x (by omega)
  · rw [if_neg hs] at h ⊢
    simp only [Res.bind_eq_ok] at h
    obtain ⟨q, hq, h⟩ := h
    rw [Res.get_eq_ok] at hq
    obtain rfl := Res.ok.inj h
    rw [← hxv, hq, Option.getD_some]
    exact key b.memory q (g3 _ _ hq)

/-- the lines that `cornerLine` goes through -/
def PartOf (bottom : Bool) (numLines h k : Nat) : Prop :=
  if bottom then h ≤ numLines ∧ numLines ≤ k + h ∧ k < numLines else k < h ∧ k < numLines

/-- the inner loops of the corners and the horizontal shapes -/
def cornerCount (bottom : Bool) (numLines h : Nat) (test : Nat → Res Bool) : Nat → Nat → Res Nat
  | 0, _ => .ok 0
  | n + 1, k =>
    match cornerLine bottom numLines h k with
    | none => .ok 0
    | some a => do
      let p ← test a
      let more ← cornerCount bottom numLines h test n (k + 1)
      .ok ((if p then 1 else 0) + more)

theorem cornerCount_top (N h : Nat) (test : Nat → Res Bool) (H : Nat → Prop)
    (ht : ∀ a x, a < N → test a = .ok x → (x = true ↔ H a)) :
    ∀ n k r, cornerCount false N h test n k = .ok r → NumberOf (fun x => k ≤ x ∧ x < k + n ∧ (x < N ∧ H x)) r
  | 0, k, r, e => by
    simp only [cornerCount, Res.ok.injEq] at e
    subst e
    exact NumberOf.zero (by rintro x ⟨_, _, _⟩; omega)
  | n + 1, k, r, e => by
    unfold cornerCount cornerLine at e
    simp only [Bool.false_eq_true, if_false] at e
    by_cases hk : k ≥ N
    · rw [if_pos hk] at e
      simp only [Res.ok.injEq] at e
      subst e
      exact NumberOf.zero (by rintro x ⟨_, _, _, _⟩; omega)
    · rw [if_neg hk] at e
      simp only [Res.bind_eq_ok, Res.ok.injEq] at e
      obtain ⟨p, hp, more, hm, rfl⟩ := e
      refine NumberOf.step p ?_ (cornerCount_top N h test H ht n (k + 1) more hm)
      rw [ht k p (by omega) hp]
      exact ⟨fun e => ⟨by omega, e⟩, fun e => e.2⟩

theorem cornerCount_bottom (N h : Nat) (test : Nat → Res Bool) (H : Nat → Prop) (hN : h ≤ N)
    (ht : ∀ a x, a < N → test a = .ok x → (x = true ↔ H a)) :
    ∀ n k r, k + n = h → cornerCount true N h test n k = .ok r →
      NumberOf (fun x => N - h + k ≤ x ∧ x < N - h + k + n ∧ H x) r
  | 0, k, r, _, e => by
    simp only [cornerCount, Res.ok.injEq] at e
    subst e
    exact NumberOf.zero (by rintro x ⟨_, _, _⟩; omega)
  | n + 1, k, r, hk, e => by
    unfold cornerCount cornerLine at e
    rw [if_pos rfl, if_neg (by omega), if_neg (by omega)] at e
    simp only [Res.bind_eq_ok, Res.ok.injEq] at e
    obtain ⟨p, hp, more, hm, rfl⟩ := e
    have := cornerCount_bottom N h test H hN ht n (k + 1) more (by omega) hm
    have ha : k + N - h = N - h + k := by omega
    rw [ha] at hp
    exact NumberOf.step p (ht _ p (by omega) hp) this

theorem cornerCount_spec (bottom : Bool) (N h : Nat) (test : Nat → Res Bool) (H : Nat → Prop)
    (ht : ∀ a x, a < N → test a = .ok x → (x = true ↔ H a)) (r : Nat) (e : cornerCount bottom N h test h 0 = .ok r) :
    NumberOf (fun k => PartOf bottom N h k ∧ H k) r := by
  unfold PartOf
  cases bottom with
  | false =>
    refine (cornerCount_top N h test H ht h 0 r e).congr ?_
    intro x
    simp only [Bool.false_eq_true, if_false, Nat.zero_le, true_and, Nat.zero_add]
    exact ⟨fun ⟨⟨a, b⟩, c⟩ => ⟨a, b, c⟩, fun ⟨a, b, c⟩ => ⟨⟨a, b⟩, c⟩⟩
  | true =>
    by_cases hN : h ≤ N
    · refine (cornerCount_bottom N h test H hN ht h 0 r (by omega) e).congr ?_
      intro x
      simp only [if_true]
      constructor
      · rintro ⟨⟨a, b, c⟩, e⟩; exact ⟨by omega, by omega, e⟩
      · rintro ⟨a, b, e⟩; exact ⟨⟨hN, by omega, by omega⟩, e⟩
    · have : r = 0 := by
        cases h with
        | zero => omega
        | succ n =>
          unfold cornerCount cornerLine at e
          rw [if_pos rfl, if_pos (by omega)] at e
          exact (Res.ok.inj e).symm
      subst this
      exact NumberOf.zero (by rintro x ⟨⟨a, _⟩, _⟩; exact hN a)

theorem westCornerHits_eq (lines : List Line) (c : CompType) (bottom : Bool) (h : Nat) (t : Str) : ∀ n k,
    westCornerHits lines c bottom h t n k = cornerCount bottom lines.length h
      (fun a => do .ok (strnEq t.length (← prepareCompInput lines a true c) t)) n k
  | 0, k => rfl
  | n + 1, k => by
    unfold westCornerHits cornerCount
    cases cornerLine bottom lines.length h k with
    | none => rfl
    | some a =>
      simp only
      rw [westCornerHits_eq lines c bottom h t n (k + 1)]
      cases prepareCompInput lines a true c <;> rfl

theorem eastCornerHits_eq (lines : List Line) (c : CompType) (bottom : Bool) (h : Nat) (t : Str) : ∀ n k,
    eastCornerHits lines c bottom h t n k = cornerCount bottom lines.length h
      (fun a => do .ok (endTest t (← prepareCompInputRight lines a c t.length))) n k
  | 0, k => rfl
  | n + 1, k => by
    unfold eastCornerHits cornerCount
    cases cornerLine bottom lines.length h k with
    | none => rfl
    | some a =>
      simp only
      rw [eastCornerHits_eq lines c bottom h t n (k + 1)]
      cases prepareCompInputRight lines a c t.length with
      | ok p => cases p <;> rfl
      | fail => rfl
      | ub => rfl

theorem horizHits_eq (lines : List Line) (c : CompType) (bottom elastic : Bool) (h : Nat) (t : Str) : ∀ n k,
    horizHits lines c bottom elastic h t n k = cornerCount bottom lines.length h
      (fun a => do .ok (horizHit elastic (← prepareCompInput lines a true c) t)) n k
  | 0, k => rfl
  | n + 1, k => by
    unfold horizHits cornerCount
    cases cornerLine bottom lines.length h k with
    | none => rfl
    | some a =>
      simp only
      rw [horizHits_eq lines c bottom elastic h t n (k + 1)]
      cases prepareCompInput lines a true c <;> rfl

theorem horizHit_iff (e : Bool) (line t : Str) : horizHit e line t = true ↔ InRow e line t := by
  unfold horizHit InRow
  have hff : ∀ p, FirstFrom line t 0 p ↔ strstr line t = some p := by
    intro p
    rw [strstr_iff]
    unfold FirstFrom
    simp
  simp only [hff]
  cases hs : strstr line t with
  | none => simp
  | some p =>
    simp only [Option.some.injEq]
    have hex : (∃ q, p = q ∧ (e = true → q + t.length < line.length ∧ OccursAt line t (q + t.length))) ↔
        (e = true → p + t.length < line.length ∧ OccursAt line t (p + t.length)) :=
      ⟨fun ⟨q, h1, h2⟩ => h1 ▸ h2, fun h => ⟨p, rfl, h⟩⟩
    rw [hex]
    cases e with
    | false => simp
    | true =>
      rw [if_pos rfl]
      by_cases hl : p + t.length ≥ line.length
      · rw [if_pos hl]
        simp only [Bool.false_eq_true, forall_const, false_iff]
        rintro ⟨h, _⟩; omega
      · rw [if_neg hl, strnEq_prefix, occursAt_iff]
        constructor
        · intro h _; exact ⟨by omega, by omega, h⟩
        · intro h; exact (h rfl).2.2

/-- the lines of the input are fit for the comparison of their ends -/
def GoodEnds (lines : List Line) : Prop :=
  ∀ (k : Nat) b, (lines[k]?).bind (·.text) = some b → ∃ v, b.filterVisible = some v ∧ b.vis ≤ v.length ∧
    ∀ (x q : Nat), b.firstChar[x]? = some q → q ≤ b.memory.length

theorem westTest {lines : List Line} {c : CompType} {t : Str} {a : Nat} {x : Bool}
    (h : (do .ok (strnEq t.length (← prepareCompInput lines a true c) t) : Res Bool) = .ok x) :
    x = true ↔ t <+: cmpLine lines c a := by
  simp only [Res.bind_eq_ok, Res.ok.injEq] at h
  obtain ⟨p, hp, rfl⟩ := h
  rw [strnEq_prefix, cmpLine_eq hp]

theorem eastTest {lines : List Line} (hg : GoodEnds lines) {c : CompType} {t : Str} {a : Nat} (ha : a < lines.length) {x : Bool}
    (h : (do .ok (endTest t (← prepareCompInputRight lines a c t.length)) : Res Bool) = .ok x) :
    x = true ↔ t <:+ cmpEnd lines c a := by
  simp only [Res.bind_eq_ok, Res.ok.injEq] at h
  obtain ⟨p, hp, rfl⟩ := h
  exact right_test (hg a) ha hp

theorem rowTest {lines : List Line} {c : CompType} {t : Str} {a : Nat} {e x : Bool}
    (h : (do .ok (horizHit e (← prepareCompInput lines a true c) t) : Res Bool) = .ok x) :
    x = true ↔ InRow e (cmpLine lines c a) t := by
  simp only [Res.bind_eq_ok, Res.ok.injEq] at h
  obtain ⟨p, hp, rfl⟩ := h
  rw [horizHit_iff, cmpLine_eq hp]

/-- a shape line that is not looked for -/
theorem rows_blank {T : Nat → Option Str} {P : Nat → Str → Nat → Prop} {j n r : Nat} (hj : T j = none)
    (h : NumberOf (fun p : Nat × Nat => j + 1 ≤ p.1 ∧ p.1 < j + 1 + n ∧ ∃ t, T p.1 = some t ∧ P p.1 t p.2) r) :
    NumberOf (fun p : Nat × Nat => j ≤ p.1 ∧ p.1 < j + (n + 1) ∧ ∃ t, T p.1 = some t ∧ P p.1 t p.2) r := by
  have := NumberOf.rows (H := fun j k => ∃ t, T j = some t ∧ P j t k) (j := j) (NumberOf.zero (by simp [hj])) h
  rwa [Nat.zero_add] at this

/-- a shape line that is looked for -/
theorem rows_text {T : Nat → Option Str} {P : Nat → Str → Nat → Prop} {j n x r : Nat} {t : Str} (hj : T j = some t)
    (hx : NumberOf (P j t) x)
    (h : NumberOf (fun p : Nat × Nat => j + 1 ≤ p.1 ∧ p.1 < j + 1 + n ∧ ∃ t, T p.1 = some t ∧ P p.1 t p.2) r) :
    NumberOf (fun p : Nat × Nat => j ≤ p.1 ∧ p.1 < j + (n + 1) ∧ ∃ t, T p.1 = some t ∧ P p.1 t p.2) (x + r) := by
  refine NumberOf.rows (H := fun j k => ∃ t, T j = some t ∧ P j t k) (j := j) (hx.congr ?_) h
  intro k
  rw [hj]
  simp

theorem westCornerLoop_count (db : CharDb) (d : Design) (lines : List Line) (c : CompType) (m : ShapeName)
    (hm : ∀ j, dropsOf db d m j = (true, false)) : ∀ n j r, westCornerLoop db d lines c m n j = .ok r →
      NumberOf (fun p : Nat × Nat => j ≤ p.1 ∧ p.1 < j + n ∧ ∃ t, cmpShape db d c m p.1 = some t ∧
        (PartOf (decide (m = SW)) lines.length (d.shape m).height p.2 ∧ t <+: cmpLine lines c p.2)) r
  | 0, j, r, e => by
    simp only [westCornerLoop, Res.ok.injEq] at e
    subst e
    exact NumberOf.zero (by rintro x ⟨_, _, _⟩; omega)
  | n + 1, j, r, e => by
    unfold westCornerLoop at e
    simp only [Res.bind_eq_ok] at e
    obtain ⟨b, hb, e⟩ := e
    rw [Res.get_eq_ok] at hb
    by_cases hbl : b.isBlankStr db = true
    · rw [if_pos hbl] at e
      exact rows_blank (P := fun _ t k => PartOf (decide (m = SW)) lines.length (d.shape m).height k ∧ t <+: cmpLine lines c k)
        (cmpShape_none hb hbl) (westCornerLoop_count db d lines c m hm n (j + 1) r e)
    · rw [if_neg hbl] at e
      simp only [Res.bind_eq_ok, Res.ok.injEq] at e
      obtain ⟨s, hs, hits, hh, more, hmore, rfl⟩ := e
      refine rows_text (P := fun _ t k => PartOf (decide (m = SW)) lines.length (d.shape m).height k ∧ t <+: cmpLine lines c k)
        (cmpShape_some hb hbl (by rw [hm]; exact hs)) ?_ (westCornerLoop_count db d lines c m hm n (j + 1) more hmore)
      rw [westCornerHits_eq] at hh
      exact cornerCount_spec _ _ _ _ _ (fun a x _ h => westTest h) _ hh

theorem eastCornerLoop_count (db : CharDb) (d : Design) (lines : List Line) (hg : GoodEnds lines) (c : CompType) (m : ShapeName)
    (hm : ∀ j, dropsOf db d m j = (false, true)) : ∀ n j r, eastCornerLoop db d lines c m n j = .ok r →
      NumberOf (fun p : Nat × Nat => j ≤ p.1 ∧ p.1 < j + n ∧ ∃ t, cmpShape db d c m p.1 = some t ∧
        (PartOf (decide (m = SE)) lines.length (d.shape m).height p.2 ∧ t <:+ cmpEnd lines c p.2)) r
  | 0, j, r, e => by
    simp only [eastCornerLoop, Res.ok.injEq] at e
    subst e
    exact NumberOf.zero (by rintro x ⟨_, _, _⟩; omega)
  | n + 1, j, r, e => by
    unfold eastCornerLoop at e
    simp only [Res.bind_eq_ok] at e
    obtain ⟨b, hb, e⟩ := e
    rw [Res.get_eq_ok] at hb
    by_cases hbl : b.isBlankStr db = true
    · rw [if_pos hbl] at e
      exact rows_blank (P := fun _ t k => PartOf (decide (m = SE)) lines.length (d.shape m).height k ∧ t <:+ cmpEnd lines c k)
        (cmpShape_none hb hbl) (eastCornerLoop_count db d lines hg c m hm n (j + 1) r e)
    · rw [if_neg hbl] at e
      simp only [Res.bind_eq_ok, Res.ok.injEq] at e
      obtain ⟨s, hs, hits, hh, more, hmore, rfl⟩ := e
      refine rows_text (P := fun _ t k => PartOf (decide (m = SE)) lines.length (d.shape m).height k ∧ t <:+ cmpEnd lines c k)
        (cmpShape_some hb hbl (by rw [hm]; exact hs)) ?_ (eastCornerLoop_count db d lines hg c m hm n (j + 1) more hmore)
      rw [eastCornerHits_eq] at hh
      exact cornerCount_spec _ _ _ _ _ (fun a x ha h => eastTest hg ha h) _ hh

theorem allBlankAt_ok (db : CharDb) (sarr : ShapeName → Shape) (i : Nat) : ∀ (l : List ShapeName) (a : Bool),
    allBlankAt db sarr i l = .ok a → a = l.all fun m => match (sarr m).lines[i]? with
      | some b => b.isBlankStr db
      | none => true
  | [], a, h => by simp only [allBlankAt, Res.ok.injEq] at h; simp [h.symm]
  | m :: l, a, h => by
    unfold allBlankAt at h
    rw [List.all_cons]
    by_cases he : (sarr m).lines.isEmpty = true
    · rw [if_pos he] at h
      have hnil : (sarr m).lines = [] := by simpa using he
      rw [hnil]
      simpa using allBlankAt_ok db sarr i l a h
    · rw [if_neg he] at h
      simp only [Res.bind_eq_ok] at h
      obtain ⟨b, hb, h⟩ := h
      rw [Res.get_eq_ok] at hb
      rw [hb]
      cases hbl : b.isBlankStr db with
      | true => rw [hbl] at h; simpa [hbl] using allBlankAt_ok db sarr i l a (by simpa using h)
      | false => rw [hbl] at h; simp at h; simp [hbl, h]

theorem blankward_bare (db : CharDb) (d : Design) (hu : Unasked d) (hn : ∀ n, (d.shape n).name = n) (n : ShapeName)
    (hm : n ∈ [NNW, N, NNE, SSE, S, SSW]) (i : Nat) (left a : Bool) (hi : i < (d.shape n).height)
    (h : askFresh db d ⟨n, i, left⟩ = .ok a) : a = bareB db d n i left := by
  have hcalc : isBlankwardCalc db d n i left = .ok a := by
    unfold askFresh isBlankward at h
    simp only at h
    rw [if_neg (by omega)] at h
    have hnone : (d.shape n).cache left = none := by
      obtain ⟨h1, h2⟩ := hu n
      cases left
      · exact h2
      · exact h1
    simp only [hnone, Option.bind_none, Option.getD_none, List.length_replicate, hi, if_true] at h
    cases hc : isBlankwardCalc db d n i left with
    | ok x => rw [hc] at h; exact h
    | fail x => rw [hc] at h; cases h
    | ub => rw [hc] at h; cases h
  unfold isBlankwardCalc at hcalc
  rw [hn n] at hcalc
  unfold bareB
  simp only [List.mem_cons, List.not_mem_nil, or_false] at hm
  rcases hm with rfl | rfl | rfl | rfl | rfl | rfl <;> cases left <;> exact allBlankAt_ok db d.shape i _ a hcalc

theorem horizLoop_count (db : CharDb) (d0 : Design) (hu : Unasked d0) (hn : ∀ n, (d0.shape n).name = n) (lines : List Line)
    (c : CompType) (m : ShapeName) (hm : m ∈ [NNW, N, NNE, SSE, S, SSW])
    (hd : ∀ j, dropsOf db d0 m j = (bareB db d0 m j true, bareB db d0 m j false)) :
    ∀ n j d q, Coherent db d0 d → j + n ≤ (d0.shape m).height → horizLoop db lines c m n j d = .ok q →
      NumberOf (fun p : Nat × Nat => j ≤ p.1 ∧ p.1 < j + n ∧ ∃ t, cmpShape db d0 c m p.1 = some t ∧
        (PartOf (decide (SSE.idx ≤ m.idx) && decide (m.idx ≤ SSW.idx)) lines.length (d0.shape m).height p.2 ∧
          InRow (d0.shape m).elastic (cmpLine lines c p.2) t)) q.1
  | 0, j, d, q, _, _, e => by
    simp only [horizLoop, Res.ok.injEq] at e
    subst e
    exact NumberOf.zero (by rintro x ⟨_, _, _⟩; omega)
  | n + 1, j, d, q, hco, hj, e => by
    unfold horizLoop at e
    simp only [Res.bind_eq_ok] at e
    obtain ⟨b, hb, e⟩ := e
    rw [Res.get_eq_ok] at hb
    have hs0 := hco.toSame (coherent_refl db hu)
    rw [(hs0.same m).1] at hb
    by_cases hbl : b.isBlankStr db = true
    · rw [if_pos hbl] at e
      exact rows_blank (P := fun _ t k => PartOf (decide (SSE.idx ≤ m.idx) && decide (m.idx ≤ SSW.idx)) lines.length
          (d0.shape m).height k ∧ InRow (d0.shape m).elastic (cmpLine lines c k) t)
        (cmpShape_none hb hbl) (horizLoop_count db d0 hu hn lines c m hm hd n (j + 1) d q hco (by omega) e)
    · rw [if_neg hbl] at e
      simp only [Res.bind_eq_ok, Res.ok.injEq] at e
      obtain ⟨q1, h1, q2, h2, s, hs, hits, hh, more, hmore, rfl⟩ := e
      have ha : ∀ {d : Design} {l : Bool} {q : Bool × Design}, Coherent db d0 d → isBlankward db d m j l = .ok q →
          Coherent db d0 q.2 ∧ q.1 = bareB db d0 m j l := by
        intro d l q hc hq
        rcases ask_ok db hu hc ⟨m, j, l⟩ with ⟨a, d', g1, g2, g3⟩ | ⟨g1, _⟩ | ⟨_, g1, _⟩
        · simp only at g1
          rw [hq] at g1
          obtain rfl := Res.ok.inj g1
          exact ⟨g2, blankward_bare db d0 hu hn m hm j l a (by omega) g3⟩
        · simp only at g1; rw [hq] at g1; cases g1
        · simp only at g1; rw [hq] at g1; cases g1
      obtain ⟨c1, a1⟩ := ha hco h1
      obtain ⟨c2, a2⟩ := ha c1 h2
      refine rows_text (P := fun _ t k => PartOf (decide (SSE.idx ≤ m.idx) && decide (m.idx ≤ SSW.idx)) lines.length
          (d0.shape m).height k ∧ InRow (d0.shape m).elastic (cmpLine lines c k) t)
        (cmpShape_some hb hbl (t := s) ?_) ?_ (horizLoop_count db d0 hu hn lines c m hm hd n (j + 1) q2.2 more c2 (by omega) hmore)
      · rw [hd]
        simp only
        rw [← a1, ← a2, ← prepareCompShape_congr (c2.toSame (coherent_refl db hu))]
        exact hs
      · rw [horizHits_eq, (hs0.same m).2.1, (hs0.same m).2.2.2] at hh
        exact cornerCount_spec _ _ _ _ _ (fun a x _ h => rowTest h) _ hh

theorem westLineHit_spec (db : CharDb) (d : Design) (c : CompType) (m : ShapeName) (hm : ∀ j, dropsOf db d m j = (true, false))
    (line : Str) : ∀ n j x, westLineHit db d c m line n j = .ok x →
      (x = true → ∃ i t, j ≤ i ∧ i < j + n ∧ cmpShape db d c m i = some t ∧ t <+: line ∧
        ∀ i' t', j ≤ i' → i' < i → cmpShape db d c m i' = some t' → ¬ t' <+: line) ∧
      (x = false → ∀ i t, j ≤ i → i < j + n → cmpShape db d c m i = some t → ¬ t <+: line)
  | 0, j, x, e => by
    simp only [westLineHit, Res.ok.injEq] at e
    subst e
    exact ⟨by simp, fun _ i t h1 h2 => by omega⟩
  | n + 1, j, x, e => by
    unfold westLineHit at e
    simp only [Res.bind_eq_ok] at e
    obtain ⟨b, hb, e⟩ := e
    rw [Res.get_eq_ok] at hb
    have go : ∀ (hno : ∀ t, cmpShape db d c m j = some t → ¬ t <+: line), westLineHit db d c m line n (j + 1) = .ok x →
        (x = true → ∃ i t, j ≤ i ∧ i < j + (n + 1) ∧ cmpShape db d c m i = some t ∧ t <+: line ∧
          ∀ i' t', j ≤ i' → i' < i → cmpShape db d c m i' = some t' → ¬ t' <+: line) ∧
        (x = false → ∀ i t, j ≤ i → i < j + (n + 1) → cmpShape db d c m i = some t → ¬ t <+: line) := by
      intro hno e
      obtain ⟨g1, g2⟩ := westLineHit_spec db d c m hm line n (j + 1) x e
      constructor
      · intro hx
        obtain ⟨i, t, a1, a2, a3, a4, a5⟩ := g1 hx
        refine ⟨i, t, by omega, by omega, a3, a4, ?_⟩
        intro i' t' b1 b2 b3
        by_cases hi : i' = j
        · subst hi; exact hno t' b3
        · exact a5 i' t' (by omega) b2 b3
      · intro hx i t b1 b2 b3
        by_cases hi : i = j
        · subst hi; exact hno t b3
        · exact g2 hx i t (by omega) (by omega) b3
    by_cases hbl : b.isBlankStr db = true
    · rw [if_pos hbl] at e
      exact go (by rw [cmpShape_none hb hbl]; simp) e
    · rw [if_neg hbl] at e
      simp only [Res.bind_eq_ok] at e
      obtain ⟨s, hs, e⟩ := e
      have hc := cmpShape_some hb hbl (by rw [hm]; exact hs)
      by_cases ht : strnEq s.length line s = true
      · rw [if_pos ht] at e
        obtain rfl := Res.ok.inj e
        refine ⟨fun _ => ⟨j, s, by omega, by omega, hc, (strnEq_prefix _ _).1 ht, fun i' _ h1 h2 => by omega⟩, by simp⟩
      · rw [if_neg ht] at e
        refine go ?_ e
        intro t h1 h2
        rw [hc] at h1
        obtain rfl := Option.some.inj h1
        exact ht ((strnEq_prefix _ _).2 h2)

theorem westLoop_count (db : CharDb) (d : Design) (lines : List Line) (c : CompType) (m : ShapeName)
    (hm : ∀ j, dropsOf db d m j = (true, false)) : ∀ n k r, westLoop db d lines c m n k = .ok r →
      NumberOf (fun p : Nat × Nat => k ≤ p.1 ∧ p.1 < k + n ∧ (p.2 < (d.shape m).height ∧ ∃ t, cmpShape db d c m p.2 = some t ∧
        t <+: cmpLine lines c p.1 ∧ ∀ j' t', j' < p.2 → cmpShape db d c m j' = some t' → ¬ t' <+: cmpLine lines c p.1)) r
  | 0, k, r, e => by
    simp only [westLoop, Res.ok.injEq] at e
    subst e
    exact NumberOf.zero (by rintro x ⟨_, _, _⟩; omega)
  | n + 1, k, r, e => by
    unfold westLoop at e
    simp only [Res.bind_eq_ok, Res.ok.injEq] at e
    obtain ⟨p, hp, x, hx, more, hmore, rfl⟩ := e
    refine NumberOf.rows (H := fun k j => j < (d.shape m).height ∧ ∃ t, cmpShape db d c m j = some t ∧
        t <+: cmpLine lines c k ∧ ∀ j' t', j' < j → cmpShape db d c m j' = some t' → ¬ t' <+: cmpLine lines c k) ?_
      (westLoop_count db d lines c m hm n (k + 1) more hmore)
    rw [cmpLine_eq hp]
    obtain ⟨g1, g2⟩ := westLineHit_spec db d c m hm p _ 0 x hx
    cases x with
    | false =>
      refine NumberOf.zero ?_
      rintro j ⟨h1, t, h2, h3, _⟩
      exact g2 rfl j t (by omega) (by omega) h2 h3
    | true =>
      obtain ⟨i, t, a1, a2, a3, a4, a5⟩ := g1 rfl
      refine NumberOf.one i ?_
      intro j
      constructor
      · rintro ⟨h1, t', h2, h3, h4⟩
        rcases Nat.lt_trichotomy j i with h | h | h
        · exact absurd h3 (a5 j t' (by omega) h h2)
        · exact h
        · exact absurd a4 (h4 i t h a3)
      · rintro rfl
        exact ⟨by omega, t, a3, a4, fun j' t' h1 h2 => a5 j' t' (by omega) h1 h2⟩

theorem eastLineHit_spec (lines : List Line) (hg : GoodEnds lines) (c : CompType) (t : Str) : ∀ n k x, k + n ≤ lines.length →
    eastLineHit lines c t n k = .ok x →
      (x = true → ∃ i, k ≤ i ∧ i < k + n ∧ t <:+ cmpEnd lines c i ∧ ∀ i', k ≤ i' → i' < i → ¬ t <:+ cmpEnd lines c i') ∧
      (x = false → ∀ i, k ≤ i → i < k + n → ¬ t <:+ cmpEnd lines c i)
  | 0, k, x, _, e => by
    simp only [eastLineHit, Res.ok.injEq] at e
    subst e
    exact ⟨by simp, fun _ i h1 h2 => by omega⟩
  | n + 1, k, x, hk, e => by
    unfold eastLineHit at e
    simp only [Res.bind_eq_ok] at e
    obtain ⟨p, hp, e⟩ := e
    have ht := right_test (hg k) (by omega) hp
    have e' : (if endTest t p = true then .ok true else eastLineHit lines c t n (k + 1)) = Res.ok x := by
      cases p with
      | none => exact e
      | some s => exact e
    by_cases hh : endTest t p = true
    · rw [if_pos hh] at e'
      obtain rfl := Res.ok.inj e'
      exact ⟨fun _ => ⟨k, by omega, by omega, ht.1 hh, fun i' h1 h2 => by omega⟩, by simp⟩
    · rw [if_neg hh] at e'
      obtain ⟨g1, g2⟩ := eastLineHit_spec lines hg c t n (k + 1) x (by omega) e'
      have hno : ¬ t <:+ cmpEnd lines c k := fun h => hh (ht.2 h)
      constructor
      · intro hx
        obtain ⟨i, a1, a2, a3, a4⟩ := g1 hx
        refine ⟨i, by omega, by omega, a3, ?_⟩
        intro i' b1 b2
        by_cases hi : i' = k
        · subst hi; exact hno
        · exact a4 i' (by omega) b2
      · intro hx i b1 b2
        by_cases hi : i = k
        · subst hi; exact hno
        · exact g2 hx i (by omega) (by omega)

theorem eastLoop_count (db : CharDb) (d : Design) (lines : List Line) (hg : GoodEnds lines) (c : CompType) (m : ShapeName)
    (hm : ∀ j, dropsOf db d m j = (true, true)) (first count : Nat) (hc : first + count ≤ lines.length) :
    ∀ n j r, eastLoop db d lines c m first count n j = .ok r →
      NumberOf (fun p : Nat × Nat => j ≤ p.1 ∧ p.1 < j + n ∧ ∃ t, cmpShape db d c m p.1 = some t ∧
        ((first ≤ p.2 ∧ p.2 < first + count) ∧ t <:+ cmpEnd lines c p.2 ∧
          ∀ k', k' < p.2 → first ≤ k' ∧ k' < first + count → ¬ t <:+ cmpEnd lines c k')) r
  | 0, j, r, e => by
    simp only [eastLoop, Res.ok.injEq] at e
    subst e
    exact NumberOf.zero (by rintro x ⟨_, _, _⟩; omega)
  | n + 1, j, r, e => by
    unfold eastLoop at e
    simp only [Res.bind_eq_ok] at e
    obtain ⟨b, hb, e⟩ := e
    rw [Res.get_eq_ok] at hb
    by_cases hbl : b.isBlankStr db = true
    · rw [if_pos hbl] at e
      exact rows_blank (P := fun _ t k => (first ≤ k ∧ k < first + count) ∧ t <:+ cmpEnd lines c k ∧
          ∀ k', k' < k → first ≤ k' ∧ k' < first + count → ¬ t <:+ cmpEnd lines c k')
        (cmpShape_none hb hbl) (eastLoop_count db d lines hg c m hm first count hc n (j + 1) r e)
    · rw [if_neg hbl] at e
      simp only [Res.bind_eq_ok, Res.ok.injEq] at e
      obtain ⟨s, hs, x, hx, more, hmore, rfl⟩ := e
      refine rows_text (P := fun _ t k => (first ≤ k ∧ k < first + count) ∧ t <:+ cmpEnd lines c k ∧
          ∀ k', k' < k → first ≤ k' ∧ k' < first + count → ¬ t <:+ cmpEnd lines c k')
        (cmpShape_some hb hbl (by rw [hm]; exact hs)) ?_ (eastLoop_count db d lines hg c m hm first count hc n (j + 1) more hmore)
      obtain ⟨g1, g2⟩ := eastLineHit_spec lines hg c s count first x hc hx
      cases x with
      | false =>
        refine NumberOf.zero ?_
        rintro k ⟨h1, h2, _⟩
        exact g2 rfl k h1.1 h1.2 h2
      | true =>
        obtain ⟨i, a1, a2, a3, a4⟩ := g1 rfl
        refine NumberOf.one i ?_
        intro k
        constructor
        · rintro ⟨h1, h2, h3⟩
          rcases Nat.lt_trichotomy k i with h | h | h
          · exact absurd h2 (a4 k h1.1 h)
          · exact h
          · exact absurd a3 (h3 i h ⟨a1, a2⟩)
        · rintro rfl
          exact ⟨⟨a1, a2⟩, a3, fun k' h1 h2 => a4 k' h2.1 h1⟩

theorem matchShape_count (db : CharDb) (d0 : Design) (hu : Unasked d0) (hn : ∀ n, (d0.shape n).name = n) (lines : List Line)
    (hg : GoodEnds lines) (c : CompType) (d : Design) (hco : Coherent db d0 d) (m : ShapeName) (q : Nat × Design)
    (h : matchShape db d lines c (determineEmptySides d0) m = .ok q) :
    NumberOf (fun p : Nat × Nat => Hit (sceneOf db d0 lines c) m p.1 p.2) q.1 := by
  obtain ⟨_, e', h, _⟩ := matchShape_congr hu hco (coherent_refl db hu) lines c _ m h
  generalize q.1 = r at h
  -- corners on the left
  have west : ∀ (m : ShapeName) (hm : ∀ j, dropsOf db d0 m j = (true, false)) (r : Nat),
      findWestCorner db d0 lines c (determineEmptySides d0) m = .ok r →
      NumberOf (fun p : Nat × Nat => p.1 < (d0.shape m).height ∧ ∃ t, cmpShape db d0 c m p.1 = some t ∧
        (¬ ((determineEmptySides d0).left = true ∨ ((determineEmptySides d0).top = true ∧ m = NW) ∨
          ((determineEmptySides d0).bottom = true ∧ m = SW)) ∧
        PartOf (decide (m = SW)) lines.length (d0.shape m).height p.2 ∧ t <+: cmpLine lines c p.2)) r := by
    intro m hm r h
    unfold findWestCorner at h
    by_cases he : (determineEmptySides d0).left = true ∨ ((determineEmptySides d0).top = true ∧ m = NW) ∨
          ((determineEmptySides d0).bottom = true ∧ m = SW)
    · rw [if_pos he] at h
      obtain rfl := Res.ok.inj h
      exact NumberOf.zero (fun x ⟨_, t, _, h, _⟩ => h he)
    · rw [if_neg he] at h
      refine (westCornerLoop_count db d0 lines c m hm _ _ _ h).congr ?_
      intro p
      constructor
      · rintro ⟨h1, t, h2, h3, h4⟩; exact ⟨by omega, by omega, t, h2, h4⟩
      · rintro ⟨h0, h1, t, h2, h4⟩; exact ⟨by omega, t, h2, he, h4⟩
  have east : ∀ (m : ShapeName) (hm : ∀ j, dropsOf db d0 m j = (false, true)) (r : Nat),
      findEastCorner db d0 lines c (determineEmptySides d0) m = .ok r →
      NumberOf (fun p : Nat × Nat => p.1 < (d0.shape m).height ∧ ∃ t, cmpShape db d0 c m p.1 = some t ∧
        (¬ ((determineEmptySides d0).right = true ∨ ((determineEmptySides d0).top = true ∧ m = NE) ∨
          ((determineEmptySides d0).bottom = true ∧ m = SE)) ∧
        PartOf (decide (m = SE)) lines.length (d0.shape m).height p.2 ∧ t <:+ cmpEnd lines c p.2)) r := by
    intro m hm r h
    unfold findEastCorner at h
    by_cases he : (determineEmptySides d0).right = true ∨ ((determineEmptySides d0).top = true ∧ m = NE) ∨
          ((determineEmptySides d0).bottom = true ∧ m = SE)
    · rw [if_pos he] at h
      obtain rfl := Res.ok.inj h
      exact NumberOf.zero (fun x ⟨_, t, _, h, _⟩ => h he)
    · rw [if_neg he] at h
      refine (eastCornerLoop_count db d0 lines hg c m hm _ _ _ h).congr ?_
      intro p
      constructor
      · rintro ⟨h1, t, h2, h3, h4⟩; exact ⟨by omega, by omega, t, h2, h4⟩
      · rintro ⟨h0, h1, t, h2, h4⟩; exact ⟨by omega, t, h2, he, h4⟩
  have horiz : ∀ (m : ShapeName) (hm : m ∈ [NNW, N, NNE, SSE, S, SSW])
      (hd : ∀ j, dropsOf db d0 m j = (bareB db d0 m j true, bareB db d0 m j false)) (r : Nat),
      findHorizontalShape db d0 lines c (determineEmptySides d0) m = .ok (r, e') →
      NumberOf (fun p : Nat × Nat => p.1 < (d0.shape m).height ∧ ∃ t, cmpShape db d0 c m p.1 = some t ∧
        (¬ ((determineEmptySides d0).top = true ∨ (determineEmptySides d0).bottom = true) ∧
        PartOf (decide (SSE.idx ≤ m.idx) && decide (m.idx ≤ SSW.idx)) lines.length (d0.shape m).height p.2 ∧
        InRow (d0.shape m).elastic (cmpLine lines c p.2) t)) r := by
    intro m hm hd r h
    unfold findHorizontalShape at h
    by_cases he : (determineEmptySides d0).top = true ∨ (determineEmptySides d0).bottom = true
    · rw [if_pos he] at h
      obtain ⟨rfl, _⟩ := Prod.mk.inj (Res.ok.inj h)
      exact NumberOf.zero (fun x ⟨_, t, _, h, _⟩ => h he)
    · rw [if_neg he] at h
      refine (horizLoop_count db d0 hu hn lines c m hm hd _ _ d0 _ (coherent_refl db hu) (by omega) h).congr ?_
      intro p
      constructor
      · rintro ⟨h1, t, h2, h3, h4⟩; exact ⟨by omega, by omega, t, h2, h4⟩
      · rintro ⟨h0, h1, t, h2, h4⟩; exact ⟨by omega, t, h2, he, h4⟩
  have mid : ∀ k, (sceneOf db d0 lines c).Middle k ↔ k < lines.length ∧
      (outerLines d0 (determineEmptySides d0)).1 ≤ k ∧ k + (outerLines d0 (determineEmptySides d0)).2 < lines.length := by
    intro k
    unfold Scene.Middle sceneOf outerLines
    simp only
    cases (determineEmptySides d0).top <;> cases (determineEmptySides d0).bottom <;> simp <;> omega
  have vwest : ∀ (m : ShapeName) (hm : ∀ j, dropsOf db d0 m j = (true, false)) (r : Nat),
      findVerticalWest db d0 lines c (determineEmptySides d0) m = .ok r →
      NumberOf (fun p : Nat × Nat => p.1 < (d0.shape m).height ∧ ∃ t, cmpShape db d0 c m p.1 = some t ∧
        (Present (d0.shape m) ∧ (sceneOf db d0 lines c).Middle p.2 ∧ t <+: cmpLine lines c p.2 ∧
          ∀ j' t', j' < p.1 → cmpShape db d0 c m j' = some t' → ¬ t' <+: cmpLine lines c p.2)) r := by
    intro m hm r h
    unfold findVerticalWest at h
    simp only [mid]
    dsimp only at h
    generalize outerLines d0 (determineEmptySides d0) = o at h
    by_cases ho : o.1 + o.2 ≥ lines.length
    · rw [if_pos ho] at h
      obtain rfl := Res.ok.inj h
      refine NumberOf.zero ?_
      rintro x ⟨_, t, _, _, ⟨_, _, _⟩, _⟩
      omega
    · rw [if_neg ho] at h
      by_cases he : (d0.shape m).isEmpty = true
      · rw [if_pos he] at h
        obtain rfl := Res.ok.inj h
        refine NumberOf.zero ?_
        rintro x ⟨_, t, _, hp, _⟩
        rw [(present_iff _).2 hp] at he; cases he
      · rw [if_neg he] at h
        have hp : Present (d0.shape m) := (present_iff _).1 (by simpa using he)
        refine NumberOf.map (fun p : Nat × Nat => (p.2, p.1)) ?_ (westLoop_count db d0 lines c m hm _ _ _ h) ?_
        · rintro ⟨a, b⟩ ⟨a', b'⟩ e
          obtain ⟨rfl, rfl⟩ := Prod.mk.inj e
          rfl
        · rintro ⟨j, k⟩
          constructor
          · rintro ⟨h1, t, h2, _, ⟨_, h3, h4⟩, h5, h6⟩
            exact ⟨(k, j), ⟨by simpa using h3, by simp only; omega, h1, t, h2, h5, h6⟩, rfl⟩
          · rintro ⟨⟨a, b⟩, ⟨h1, h2, h3, t, h4, h5, h6⟩, e⟩
            obtain ⟨rfl, rfl⟩ := Prod.mk.inj e
            simp only at h1 h2
            exact ⟨h3, t, h4, hp, ⟨by omega, h1, by omega⟩, h5, h6⟩
  have veast : ∀ (m : ShapeName) (hm : ∀ j, dropsOf db d0 m j = (true, true)) (r : Nat),
      findVerticalEast db d0 lines c (determineEmptySides d0) m = .ok r →
      NumberOf (fun p : Nat × Nat => p.1 < (d0.shape m).height ∧ ∃ t, cmpShape db d0 c m p.1 = some t ∧
        (Present (d0.shape m) ∧ (sceneOf db d0 lines c).Middle p.2 ∧ t <:+ cmpEnd lines c p.2 ∧
          ∀ k', k' < p.2 → (sceneOf db d0 lines c).Middle k' → ¬ t <:+ cmpEnd lines c k')) r := by
    intro m hm r h
    unfold findVerticalEast at h
    simp only [mid]
    dsimp only at h
    generalize outerLines d0 (determineEmptySides d0) = o at h
    by_cases ho : o.1 + o.2 ≥ lines.length
    · rw [if_pos ho] at h
      obtain rfl := Res.ok.inj h
      refine NumberOf.zero ?_
      rintro x ⟨_, t, _, _, ⟨_, _, _⟩, _⟩
      omega
    · rw [if_neg ho] at h
      by_cases he : (d0.shape m).isEmpty = true
      · rw [if_pos he] at h
        obtain rfl := Res.ok.inj h
        refine NumberOf.zero ?_
        rintro x ⟨_, t, _, hp, _⟩
        rw [(present_iff _).2 hp] at he; cases he
      · rw [if_neg he] at h
        have hp : Present (d0.shape m) := (present_iff _).1 (by simpa using he)
        refine (eastLoop_count db d0 lines hg c m hm _ _ (by omega) _ _ _ h).congr ?_
        rintro ⟨j, k⟩
        simp only
        constructor
        · rintro ⟨h1, t, h2, _, ⟨_, h3, h4⟩, h5, h6⟩
          exact ⟨by omega, by omega, t, h2, ⟨h3, by omega⟩, h5, fun k' a b => h6 k' a ⟨by omega, b.1, by omega⟩⟩
        · rintro ⟨_, h1, t, h2, ⟨h3, h4⟩, h5, h6⟩
          exact ⟨by omega, t, h2, hp, ⟨by omega, h3, by omega⟩, h5, fun k' a b => h6 k' a ⟨b.2.1, by omega⟩⟩
  unfold matchShape at h
  have one : ∀ {x : Res Nat}, (do .ok (← x, d0) : Res (Nat × Design)) = .ok (r, e') → x = .ok r := by
    intro x hx
    simp only [Res.bind_eq_ok, Res.ok.injEq] at hx
    obtain ⟨a, ha, e⟩ := hx
    obtain ⟨rfl, _⟩ := Prod.mk.inj e
    exact ha
  cases m <;> simp only at h
  all_goals first
    | (refine (horiz _ (by simp) (fun _ => rfl) r h).congr ?_
       intro p
       simp only [Hit, sceneOf, Scene.Upper, Scene.Lower, PartOf, ShapeName.idx]
       simp [and_assoc]
       done)
    | (refine (west _ (fun _ => rfl) r (one h)).congr ?_
       intro p
       simp only [Hit, sceneOf, Scene.Upper, Scene.Lower, PartOf]
       simp [and_assoc]
       done)
    | (refine (east _ (fun _ => rfl) r (one h)).congr ?_
       intro p
       simp only [Hit, sceneOf, Scene.Upper, Scene.Lower, PartOf]
       simp [and_assoc]
       done)
    | exact vwest _ (fun _ => rfl) r (one h)
    | exact veast _ (fun _ => rfl) r (one h)

theorem matchShapes_count (db : CharDb) (d0 : Design) (hu : Unasked d0) (hn : ∀ n, (d0.shape n).name = n) (lines : List Line)
    (hg : GoodEnds lines) (c : CompType) : ∀ (l : List ShapeName) (d : Design) (q : Nat × Design), l.Nodup → Coherent db d0 d →
      matchShapes db lines c (determineEmptySides d0) l d = .ok q →
      NumberOf (fun x : ShapeName × Nat × Nat => x.1 ∈ l ∧ Hit (sceneOf db d0 lines c) x.1 x.2.1 x.2.2) q.1
  | [], d, q, _, _, h => by
    simp only [matchShapes, Res.ok.injEq] at h
    subst h
    exact NumberOf.zero (by simp)
  | m :: l, d, q, hl, hco, h => by
    unfold matchShapes at h
    simp only [Res.bind_eq_ok, Res.ok.injEq] at h
    obtain ⟨q1, h1, q2, h2, rfl⟩ := h
    have hc1 := (matchShape_congr hu hco (coherent_refl db hu) lines c _ m h1).1
    have a := matchShape_count db d0 hu hn lines hg c d hco m q1 h1
    have b := matchShapes_count db d0 hu hn lines hg c l q1.2 q2 (List.nodup_cons.1 hl).2 hc1 h2
    have a' : NumberOf (fun x : ShapeName × Nat × Nat => x.1 = m ∧ Hit (sceneOf db d0 lines c) x.1 x.2.1 x.2.2) q1.1 := by
      refine NumberOf.map (fun p : Nat × Nat => (m, p)) (fun x y e => (Prod.mk.inj e).2) a ?_
      rintro ⟨n, p⟩
      constructor
      · rintro ⟨rfl, h⟩; exact ⟨p, h, rfl⟩
      · rintro ⟨p', h, e⟩; obtain ⟨rfl, rfl⟩ := Prod.mk.inj e; exact ⟨rfl, h⟩
    refine NumberOf.union a' b ?_ ?_
    · intro x
      rw [List.mem_cons]
      constructor
      · rintro ⟨h | h, h'⟩
        · exact .inl ⟨h, h'⟩
        · exact .inr ⟨h, h'⟩
      · rintro (⟨h, h'⟩ | ⟨h, h'⟩)
        · exact ⟨.inl h, h'⟩
        · exact ⟨.inr h, h'⟩
    · rintro x ⟨h, _⟩ ⟨h', _⟩
      rw [h] at h'
      exact (List.nodup_cons.1 hl).1 h'

/-- the line of a shape is a blank one that was generated, or an analysed text -/
theorem blankLine_iff {db : CharDb} (hdb : Sane db) {b : Bxs}
    (h : (∃ w, b = fromAscii (nspaces w)) ∨ Analysed db b) : b.isBlankStr db = true ↔ BlankLine db b := by
  rcases h with ⟨w, rfl⟩ | ⟨s, v, h1, h2⟩
  · have h1 : (fromAscii (nspaces w)).isBlankStr db = true := by
      unfold Bxs.isBlankStr
      split
      · rfl
      · rw [List.all_eq_true]
        intro i hi
        have hi' : i < w := by simpa [fromAscii, nspaces] using hi
        simp [fromAscii, nspaces, List.getElem?_range, show i < w + 1 by omega, hi', chSpace]
        exact .inr hdb.space_blank
    rw [h1]
    simp only [true_iff]
    intro v hv c hc
    have : v = nspaces w := Spec.Text.unique hv (text_nspaces w)
    subst this
    rw [nspaces, List.mem_replicate] at hc
    rw [hc.2]; exact .inl (.inr hdb.space_blank)
  · rw [C06_is_blank db h1 h2]
    have hm := (C01_metrics db h1 h2).1
    unfold BlankLine
    rw [hm]
    constructor
    · intro h v' hv'; rw [Spec.Text.unique hv' h1]; exact h
    · intro h; exact h v h1

/-- C66: the hits of a design are exactly the lines of its shapes found in the lines of the input, each pair counted once. -/
theorem C66_hits {db : CharDb} (hdb : Sane db) (d d' : Design) (lines : List Line) (c : CompType) (hits : Nat)
    (hu : Unasked d) (hn : ∀ n, (d.shape n).name = n) (hgood : ∀ n, Present (d.shape n) → GoodShape db (d.shape n))
    (hsh : ∀ n, ∀ b ∈ (d.shape n).lines, (∃ w, b = fromAscii (nspaces w)) ∨ ∃ s v, Text s v ∧ fromUnicode db s = some b ∧
      NarrowBlanks db v ∧ (s = v ∨ c = .ignoreShape ∨ c = .ignoreAll ∨ n ∈ [NW, SW, WNW, W, WSW, NE, SE]))
    (hin : ∀ ln ∈ lines, ∃ b s v, ln.text = some b ∧ Text s v ∧ fromUnicode db s = some b ∧ NarrowBlanks db v)
    (h : matchDesign db d lines c = .ok (hits, d')) :
    ∃ s, Sees db d lines c s ∧ NumberOf (fun x : ShapeName × Nat × Nat => Hit s x.1 x.2.1 x.2.2) hits := by
  have hin' : ∀ (k : Nat) b, (lines[k]?).bind (·.text) = some b → ∃ s v, Text s v ∧ fromUnicode db s = some b ∧ NarrowBlanks db v := by
    intro k b hb
    rw [Option.bind_eq_some_iff] at hb
    obtain ⟨ln, h1, h2⟩ := hb
    obtain ⟨b', s, v, h3, h4⟩ := hin ln (List.mem_of_getElem? h1)
    rw [h2] at h3
    obtain rfl := Option.some.inj h3
    exact ⟨s, v, h4⟩
  have hends : GoodEnds lines := by
    intro k b hb
    obtain ⟨s, v, h1, h2, _⟩ := hin' k b hb
    refine ⟨v, filterVisible_text db h1 h2, Nat.le_of_eq (C01_metrics db h1 h2).2.2.1, ?_⟩
    intro x q hq
    rw [(C01_metrics db h1 h2).1]
    by_cases hx : x ≤ v.length
    · obtain ⟨p, r, e1, _, _, e4⟩ := firstChar_split db h1 h2 x hx
      rw [e4] at hq
      obtain rfl := Option.some.inj hq
      rw [e1]; simp
    · have : b.firstChar.length = v.length + 1 := (C02_terminator db h1 h2).1
      rw [List.getElem?_eq_none (by omega)] at hq
      cases hq
  refine ⟨sceneOf db d lines c, ?_, ?_⟩
  · have hline : ∀ n, ∀ b ∈ (d.shape n).lines, (b.isBlankStr db = true ↔ BlankLine db b) := by
      intro n b hb
      refine blankLine_iff hdb ?_
      rcases hsh n b hb with h | ⟨s, v, h1, h2, _⟩
      · exact .inl h
      · exact .inr ⟨s, v, h1, h2⟩
    have hbare : ∀ n j l, bareB db d n j l = true ↔ Bare db d n j l := by
      intro n j l
      unfold bareB Bare
      rw [List.all_eq_true]
      constructor
      · intro h m hm b hb
        have := h m hm
        rw [hb] at this
        exact (hline m b (List.mem_of_getElem? hb)).1 this
      · intro h m hm
        cases hb : (d.shape m).lines[j]? with
        | none => rfl
        | some b => exact (hline m b (List.mem_of_getElem? hb)).2 (h m hm b hb)
    have hdrop : ∀ n j, DroppedOn db d n j (dropsOf db d n j).1 (dropsOf db d n j).2 := by
      intro n j
      cases n <;> simp [DroppedOn, dropsOf, hbare]
    have hside : ∀ l, emptySide d.shape l = true ↔ BlankSide db d l := fun l => emptySide_iff hdb hgood l
    have hskS : c.skipsShape = true ↔ (c = .ignoreShape ∨ c = .ignoreAll) := by cases c <;> simp [CompType.skipsShape]
    have hskS' : c.skipsShape = false ↔ (c = .literal ∨ c = .ignoreInput) := by cases c <;> simp [CompType.skipsShape]
    have hskI : c.skipsInput = true ↔ (c = .ignoreInput ∨ c = .ignoreAll) := by cases c <;> simp [CompType.skipsInput]
    have hskI' : c.skipsInput = false ↔ (c = .literal ∨ c = .ignoreShape) := by cases c <;> simp [CompType.skipsInput]
    have hprep : ∀ n j b, (d.shape n).lines[j]? = some b → j < (d.shape n).height → ¬ b.isBlankStr db = true → ∃ t v, Text b.memory v ∧
        prepareCompShape d n j c (dropsOf db d n j).1 (dropsOf db d n j).2 = .ok t ∧
        Text t (stripped db (dropsOf db d n j).1 (dropsOf db d n j).2 v) ∧
        (c.skipsShape = true → t = stripped db (dropsOf db d n j).1 (dropsOf db d n j).2 v) ∧
        (c.skipsShape = false → t <:+: b.memory) := by
      intro n j b hb hj hbl
      rcases hsh n b (List.mem_of_getElem? hb) with ⟨w, hw⟩ | ⟨s, v, h1, h2, h3, h4⟩
      · refine absurd ((hline n b (List.mem_of_getElem? hb)).2 ?_) hbl
        exact (blankLine_iff hdb (.inl ⟨w, hw⟩)).1 ((blankLine_iff hdb (.inl ⟨w, hw⟩)).2 (by
          subst hw
          intro v hv x hx
          rw [Spec.Text.unique hv (text_nspaces w), nspaces, List.mem_replicate] at hx
          rw [hx.2]; exact .inl (.inr hdb.space_blank)))
      · have hm := (C01_metrics db h1 h2).1
        obtain ⟨t, g1, g2, g3, g4⟩ := C25_shape db d n j c (dropsOf db d n j).1 (dropsOf db d n j).2 h1 h2 hb hj h3 (by
          rcases h4 with h4 | h4 | h4 | h4
          · exact .inr (.inl h4)
          · exact .inl (hskS.2 (.inl h4))
          · exact .inl (hskS.2 (.inr h4))
          · simp only [List.mem_cons, List.not_mem_nil, or_false] at h4
            rcases h4 with rfl | rfl | rfl | rfl | rfl | rfl | rfl <;> simp [dropsOf])
        exact ⟨t, v, by rw [hm]; exact h1, g1, g2, g3, fun e => by rw [hm]; exact (g4 e).1⟩
    constructor
    · intro n; exact ⟨rfl, rfl, Iff.rfl⟩
    · rfl
    · exact hside _
    · exact hside _
    · exact hside _
    · exact hside _
    · intro n j b hb hj
      rw [← hline n b (List.mem_of_getElem? hb)]
      show cmpShape db d c n j = none ↔ _
      constructor
      · intro h
        apply Decidable.byContradiction
        intro hbl
        obtain ⟨t, v, _, g, _⟩ := hprep n j b hb hj hbl
        rw [cmpShape_some hb hbl g] at h
        cases h
      · exact cmpShape_none hb
    · intro n j b t v hb hj ht hv
      have ht : cmpShape db d c n j = some t := ht
      have hbl : ¬ b.isBlankStr db = true := by
        intro hbl
        rw [cmpShape_none hb hbl] at ht
        cases ht
      obtain ⟨t', v', g0, g1, g2, g3, g4⟩ := hprep n j b hb hj hbl
      obtain rfl := Spec.Text.unique hv g0
      rw [cmpShape_some hb hbl g1] at ht
      obtain rfl := Option.some.inj ht
      exact ⟨_, _, hdrop n j, g2, fun e => g3 (hskS.2 e), fun e => g4 (hskS'.2 e)⟩
    · intro k ln b v hk hlt hv
      obtain ⟨s, v', h1, h2, h3⟩ := hin' k b (by rw [hk]; exact hlt)
      have hm := C01_metrics db h1 h2
      have hv' : v = v' := Spec.Text.unique hv (by rw [hm.1]; exact h1)
      subst hv'
      obtain ⟨t, g1, g2, g3, g4⟩ := C25_input db lines k c true h1 h2 hk hlt h3
      have hl : (sceneOf db d lines c).lineText k = t := cmpLine_eq g1
      have he := stripped_eq db h1 h2 false true
      simp only [if_true, Bool.false_eq_true, if_false, List.drop_zero] at he
      have hend : Text (cmpEnd lines c k) (stripped db false true v) ∧
          (c.skipsInput = true → cmpEnd lines c k = stripped db false true v) ∧ (c.skipsInput = false → cmpEnd lines c k <+: s) := by
        unfold cmpEnd
        rw [hk, Option.bind_some, hlt]
        simp only
        cases hs : c.skipsInput with
        | true =>
          rw [if_pos rfl, filterVisible_text db h1 h2, Option.getD_some, hm.2.2.1, he]
          exact ⟨Spec.Text.plain (fun x hx => text_vis_ne h1 x (List.mem_of_mem_take hx)), fun _ => rfl, by simp⟩
        | false =>
          rw [if_neg (by simp), hm.2.2.1, hm.1, he]
          obtain ⟨p, r, e1, e2, e3, e4⟩ := firstChar_split db h1 h2 (v.length - b.trailing) (by omega)
          rw [e4, Option.getD_some]
          have : s.take p.length = p := by rw [e1]; simp
          rw [this]
          exact ⟨e2, by simp, fun _ => ⟨r, e1.symm⟩⟩
      rw [hl]
      show Text t _ ∧ Text (cmpEnd lines c k) _ ∧ (_ → _ ∧ cmpEnd lines c k = _) ∧ (_ → _ ∧ cmpEnd lines c k <+: _)
      rw [hm.1]
      exact ⟨g2, hend.1, fun e => ⟨g3 (hskI.2 e), hend.2.1 (hskI.2 e)⟩, fun e => ⟨(g4 (hskI'.2 e)).1, hend.2.2 (hskI'.2 e)⟩⟩
  · unfold matchDesign at h
    refine (matchShapes_count db d hu hn lines hends c allShapes d _ (by decide) (coherent_refl db hu) h).congr ?_
    rintro ⟨n, j, k⟩
    have : n ∈ allShapes := by cases n <;> decide
    simp [this]

/-! ## the comparison always comes to an end -/

theorem cornerCount_total (bottom : Bool) (N h : Nat) (test : Nat → Res Bool) (ht : ∀ a, a < N → ∃ x, test a = .ok x) :
    ∀ n k, ∃ r, cornerCount bottom N h test n k = .ok r
  | 0, k => ⟨0, rfl⟩
  | n + 1, k => by
    unfold cornerCount
    cases hc : cornerLine bottom N h k with
    | none => exact ⟨0, rfl⟩
    | some a =>
      have ha : a < N := by
        unfold cornerLine at hc
        cases bottom with
        | true =>
          simp only [if_true] at hc
          split at hc
          · cases hc
          · split at hc
            · cases hc
            · have := Option.some.inj hc; omega
        | false =>
          simp only [Bool.false_eq_true, if_false] at hc
          split at hc
          · cases hc
          · have := Option.some.inj hc; omega
      obtain ⟨x, hx⟩ := ht a ha
      obtain ⟨r, hr⟩ := cornerCount_total bottom N h test ht n (k + 1)
      exact ⟨(if x then 1 else 0) + r, by simp only [hx, hr, Res.ok_bind]⟩

theorem compRight_total {db : CharDb} {lines : List Line}
    (hin : ∀ ln ∈ lines, ∃ b s v, ln.text = some b ∧ Text s v ∧ fromUnicode db s = some b ∧ NarrowBlanks db v)
    (c : CompType) (k off : Nat) (hk : k < lines.length) : ∃ p, prepareCompInputRight lines k c off = .ok p := by
  obtain ⟨b, s, v, h1, h2, h3, _⟩ := hin lines[k] (List.getElem_mem hk)
  have hm := C01_metrics db h2 h3
  obtain ⟨t1, _⟩ := trailing_eq db h2 h3
  obtain ⟨p, q, _, _, _, e4⟩ := firstChar_split db h2 h3 (v.length - b.trailing) (by omega)
  unfold prepareCompInputRight
  rw [if_neg (by omega), List.getElem?_eq_getElem hk]
  have hsub : Res.sub b.vis b.trailing = .ok (v.length - b.trailing) := by unfold Res.sub; rw [hm.2.2.1, if_pos t1]
  simp only [bind, Res.get, Res.bind, h1, hsub, filterVisible_text db h2 h3, e4]
  split <;> exact ⟨_, rfl⟩

theorem compLine_total {db : CharDb} {lines : List Line}
    (hin : ∀ ln ∈ lines, ∃ b s v, ln.text = some b ∧ Text s v ∧ fromUnicode db s = some b ∧ NarrowBlanks db v)
    (c : CompType) (k : Nat) (hk : k < lines.length) : ∃ p, prepareCompInput lines k true c = .ok p := by
  obtain ⟨b, s, v, h1, h2, h3, h4⟩ := hin lines[k] (List.getElem_mem hk)
  obtain ⟨t, g, _⟩ := C25_input db lines k c true h2 h3 (List.getElem?_eq_getElem hk) h1 h4
  exact ⟨t, g⟩

/-- a shape line that is not blank can be prepared for the comparison -/
def ShapeOk (db : CharDb) (d : Design) (c : CompType) (n : ShapeName) (l r : Bool) : Prop :=
  ∀ j, j < (d.shape n).height → ∃ b, (d.shape n).lines[j]? = some b ∧
    (¬ b.isBlankStr db = true → ∃ t, prepareCompShape d n j c l r = .ok t)

theorem westCornerLoop_total (db : CharDb) (d : Design) (lines : List Line) (c : CompType) (m : ShapeName)
    (hs : ShapeOk db d c m true false) (hl : ∀ k, k < lines.length → ∃ p, prepareCompInput lines k true c = .ok p) :
    ∀ n j, j + n ≤ (d.shape m).height → ∃ r, westCornerLoop db d lines c m n j = .ok r
  | 0, j, _ => ⟨0, rfl⟩
  | n + 1, j, hj => by
    obtain ⟨b, hb, ht⟩ := hs j (by omega)
    obtain ⟨r, hr⟩ := westCornerLoop_total db d lines c m hs hl n (j + 1) (by omega)
    unfold westCornerLoop
    simp only [hb, Res.get, Res.ok_bind]
    by_cases hbl : b.isBlankStr db = true
    · rw [if_pos hbl]; exact ⟨r, hr⟩
    · rw [if_neg hbl]
      obtain ⟨t, ht⟩ := ht hbl
      obtain ⟨x, hx⟩ := cornerCount_total (decide (m = SW)) lines.length (d.shape m).height
        (fun a => do .ok (strnEq t.length (← prepareCompInput lines a true c) t))
        (fun a ha => by obtain ⟨p, hp⟩ := hl a ha; exact ⟨strnEq t.length p t, by simp only [hp, Res.ok_bind]⟩) (d.shape m).height 0
      exact ⟨x + r, by simp only [ht, Res.ok_bind, westCornerHits_eq, hx, hr]⟩

theorem eastCornerLoop_total (db : CharDb) (d : Design) (lines : List Line) (c : CompType) (m : ShapeName)
    (hs : ShapeOk db d c m false true) (hl : ∀ k off, k < lines.length → ∃ p, prepareCompInputRight lines k c off = .ok p) :
    ∀ n j, j + n ≤ (d.shape m).height → ∃ r, eastCornerLoop db d lines c m n j = .ok r
  | 0, j, _ => ⟨0, rfl⟩
  | n + 1, j, hj => by
    obtain ⟨b, hb, ht⟩ := hs j (by omega)
    obtain ⟨r, hr⟩ := eastCornerLoop_total db d lines c m hs hl n (j + 1) (by omega)
    unfold eastCornerLoop
    simp only [hb, Res.get, Res.ok_bind]
    by_cases hbl : b.isBlankStr db = true
    · rw [if_pos hbl]; exact ⟨r, hr⟩
    · rw [if_neg hbl]
      obtain ⟨t, ht⟩ := ht hbl
      obtain ⟨x, hx⟩ := cornerCount_total (decide (m = SE)) lines.length (d.shape m).height
        (fun a => do .ok (endTest t (← prepareCompInputRight lines a c t.length)))
        (fun a ha => by obtain ⟨p, hp⟩ := hl a t.length ha; exact ⟨endTest t p, by simp only [hp, Res.ok_bind]⟩) (d.shape m).height 0
      exact ⟨x + r, by simp only [ht, Res.ok_bind, eastCornerHits_eq, hx, hr]⟩

theorem horizLoop_total (db : CharDb) (d0 : Design) (hu : Unasked d0) (lines : List Line) (c : CompType) (m : ShapeName)
    (hs : ∀ l r, ShapeOk db d0 c m l r) (hl : ∀ k, k < lines.length → ∃ p, prepareCompInput lines k true c = .ok p)
    (ha : ∀ j l, j < (d0.shape m).height → ∃ a, askFresh db d0 ⟨m, j, l⟩ = .ok a) :
    ∀ n j d, Coherent db d0 d → j + n ≤ (d0.shape m).height → ∃ q, horizLoop db lines c m n j d = .ok q
  | 0, j, d, _, _ => ⟨(0, d), rfl⟩
  | n + 1, j, d, hco, hj => by
    have ask : ∀ (d : Design) (l : Bool), Coherent db d0 d → ∃ q, isBlankward db d m j l = .ok q ∧ Coherent db d0 q.2 := by
      intro d l hc
      obtain ⟨a, h⟩ := ha j l (by omega)
      rcases ask_ok db hu hc ⟨m, j, l⟩ with ⟨a', d', g1, g2, _⟩ | ⟨_, g2⟩ | ⟨_, _, g2⟩
      · exact ⟨(a', d'), g1, g2⟩
      · rw [h] at g2; cases g2
      · rw [h] at g2; cases g2
    have hs0 := hco.toSame (coherent_refl db hu)
    obtain ⟨b, hb, _⟩ := hs true true j (by omega)
    unfold horizLoop
    simp only [(hs0.same m).1, hb, Res.get, Res.ok_bind]
    by_cases hbl : b.isBlankStr db = true
    · rw [if_pos hbl]; exact horizLoop_total db d0 hu lines c m hs hl ha n (j + 1) d hco (by omega)
    · rw [if_neg hbl]
      obtain ⟨q1, a1, c1⟩ := ask d true hco
      obtain ⟨q2, a2, c2⟩ := ask q1.2 false c1
      obtain ⟨b', hb', ht⟩ := hs q1.1 q2.1 j (by omega)
      rw [hb] at hb'
      obtain rfl := Option.some.inj hb'
      obtain ⟨t, ht⟩ := ht hbl
      rw [← prepareCompShape_congr (c2.toSame (coherent_refl db hu))] at ht
      obtain ⟨x, hx⟩ := cornerCount_total (decide (SSE.idx ≤ m.idx) && decide (m.idx ≤ SSW.idx)) lines.length (d.shape m).height
        (fun a => do .ok (horizHit (d.shape m).elastic (← prepareCompInput lines a true c) t))
        (fun a ha => by obtain ⟨p, hp⟩ := hl a ha; exact ⟨horizHit (d.shape m).elastic p t, by simp only [hp, Res.ok_bind]⟩)
        (d.shape m).height 0
      obtain ⟨r, hr⟩ := horizLoop_total db d0 hu lines c m hs hl ha n (j + 1) q2.2 c2 (by omega)
      exact ⟨(x + r.1, r.2), by simp only [a1, a2, ht, Res.ok_bind, horizHits_eq, hx, hr]⟩

theorem westLineHit_total (db : CharDb) (d : Design) (c : CompType) (m : ShapeName) (hs : ShapeOk db d c m true false) (line : Str) :
    ∀ n j, j + n ≤ (d.shape m).height → ∃ x, westLineHit db d c m line n j = .ok x
  | 0, j, _ => ⟨false, rfl⟩
  | n + 1, j, hj => by
    obtain ⟨b, hb, ht⟩ := hs j (by omega)
    have ih := westLineHit_total db d c m hs line n (j + 1) (by omega)
    unfold westLineHit
    simp only [hb, Res.get, Res.ok_bind]
    by_cases hbl : b.isBlankStr db = true
    · rw [if_pos hbl]; exact ih
    · rw [if_neg hbl]
      obtain ⟨t, ht⟩ := ht hbl
      simp only [ht, Res.ok_bind]
      split
      · exact ⟨true, rfl⟩
      · exact ih

theorem westLoop_total (db : CharDb) (d : Design) (lines : List Line) (c : CompType) (m : ShapeName) (hs : ShapeOk db d c m true false)
    (hl : ∀ k, k < lines.length → ∃ p, prepareCompInput lines k true c = .ok p) :
    ∀ n k, k + n ≤ lines.length → ∃ r, westLoop db d lines c m n k = .ok r
  | 0, k, _ => ⟨0, rfl⟩
  | n + 1, k, hk => by
    obtain ⟨p, hp⟩ := hl k (by omega)
    obtain ⟨x, hx⟩ := westLineHit_total db d c m hs p (d.shape m).height 0 (by omega)
    obtain ⟨r, hr⟩ := westLoop_total db d lines c m hs hl n (k + 1) (by omega)
    unfold westLoop
    exact ⟨(if x then 1 else 0) + r, by simp only [hp, hx, hr, Res.ok_bind]⟩

theorem eastLineHit_total (lines : List Line) (c : CompType) (t : Str)
    (hl : ∀ k off, k < lines.length → ∃ p, prepareCompInputRight lines k c off = .ok p) :
    ∀ n k, k + n ≤ lines.length → ∃ x, eastLineHit lines c t n k = .ok x
  | 0, k, _ => ⟨false, rfl⟩
  | n + 1, k, hk => by
    obtain ⟨p, hp⟩ := hl k t.length (by omega)
    have ih := eastLineHit_total lines c t hl n (k + 1) (by omega)
    unfold eastLineHit
    simp only [hp, Res.ok_bind]
    cases p with
    | none => exact ih
    | some s =>
      simp only
      split
      · exact ⟨true, rfl⟩
      · exact ih

theorem eastLoop_total (db : CharDb) (d : Design) (lines : List Line) (c : CompType) (m : ShapeName) (hs : ShapeOk db d c m true true)
    (hl : ∀ k off, k < lines.length → ∃ p, prepareCompInputRight lines k c off = .ok p) (first count : Nat)
    (hc : first + count ≤ lines.length) :
    ∀ n j, j + n ≤ (d.shape m).height → ∃ r, eastLoop db d lines c m first count n j = .ok r
  | 0, j, _ => ⟨0, rfl⟩
  | n + 1, j, hj => by
    obtain ⟨b, hb, ht⟩ := hs j (by omega)
    obtain ⟨r, hr⟩ := eastLoop_total db d lines c m hs hl first count hc n (j + 1) (by omega)
    unfold eastLoop
    simp only [hb, Res.get, Res.ok_bind]
    by_cases hbl : b.isBlankStr db = true
    · rw [if_pos hbl]; exact ⟨r, hr⟩
    · rw [if_neg hbl]
      obtain ⟨t, ht⟩ := ht hbl
      obtain ⟨x, hx⟩ := eastLineHit_total lines c t hl count first hc
      exact ⟨(if x then 1 else 0) + r, by simp only [ht, Res.ok_bind, hx, hr]⟩

/-- C66: the comparison never reads outside of the shapes or the input, if the shapes have as many lines as they are high and shapes of
the same side are equally high. -/
theorem C66_total {db : CharDb} (d : Design) (lines : List Line) (c : CompType)
    (hu : Unasked d) (hn : ∀ n, (d.shape n).name = n) (hlen : ∀ n, (d.shape n).lines.length = (d.shape n).height)
    (hheight : ∀ m ∈ [NW, NNW, N, NNE, NE], ∀ n ∈ [NW, NNW, N, NNE, NE], (d.shape m).lines ≠ [] → (d.shape n).lines ≠ [] →
      (d.shape m).height = (d.shape n).height)
    (hheight' : ∀ m ∈ [SW, SSW, S, SSE, SE], ∀ n ∈ [SW, SSW, S, SSE, SE], (d.shape m).lines ≠ [] → (d.shape n).lines ≠ [] →
      (d.shape m).height = (d.shape n).height)
    (hsh : ∀ n, ∀ b ∈ (d.shape n).lines, b.isBlankStr db = true ∨ ∃ s v, Text s v ∧ fromUnicode db s = some b ∧
      NarrowBlanks db v ∧ (s = v ∨ c = .ignoreShape ∨ c = .ignoreAll ∨ n ∈ [NW, SW, WNW, W, WSW, NE, SE]))
    (hin : ∀ ln ∈ lines, ∃ b s v, ln.text = some b ∧ Text s v ∧ fromUnicode db s = some b ∧ NarrowBlanks db v) :
    ∃ q, matchDesign db d lines c = .ok q := by
  have hl := fun k hk => compLine_total hin c k hk
  have hr := fun k off hk => compRight_total hin c k off hk
  have hok : ∀ n l r, (l = false ∨ r = false ∨ n ∉ [NW, SW, WNW, W, WSW, NE, SE]) → ShapeOk db d c n l r := by
    intro n l r hlr j hj
    have hj' : j < (d.shape n).lines.length := by rw [hlen]; exact hj
    refine ⟨(d.shape n).lines[j], List.getElem?_eq_getElem hj', ?_⟩
    intro hbl
    rcases hsh n _ (List.getElem_mem hj') with h | ⟨s, v, h1, h2, h3, h4⟩
    · exact absurd h hbl
    · obtain ⟨t, g, _⟩ := C25_shape db d n j c l r h1 h2 (List.getElem?_eq_getElem hj') hj h3 (by
        rcases h4 with h4 | h4 | h4 | h4
        · exact .inr (.inl h4)
        · left; rw [h4]; rfl
        · left; rw [h4]; rfl
        · rcases hlr with h | h | h
          · exact .inr (.inr (.inl h))
          · exact .inr (.inr (.inr h))
          · exact absurd h4 h)
      exact ⟨t, g⟩
  have hask : ∀ m ∈ [NNW, N, NNE, SSE, S, SSW], ∀ j l, j < (d.shape m).height → ∃ a, askFresh db d ⟨m, j, l⟩ = .ok a := by
    intro m hm j l hj
    have hmne : (d.shape m).lines ≠ [] := by
      intro h0; have := hlen m; rw [h0] at this; simp at this; omega
    obtain ⟨_, _, h3⟩ := C44_answer db d hu hn m j l hj
    have fin : ∀ ns, neighbours m l = some ns →
        (∀ x ∈ ns, (d.shape x).lines ≠ [] → (d.shape m).height = (d.shape x).height) → ∃ a, askFresh db d ⟨m, j, l⟩ = .ok a := by
      intro ns h1 h2
      obtain ⟨a, g, _⟩ := h3 ns h1 (fun x hx hxne => by rw [hlen, ← h2 x hx hxne]; exact hj)
      exact ⟨a, g⟩
    simp only [List.mem_cons, List.not_mem_nil, or_false] at hm
    have north : ∀ ns : List ShapeName, m ∈ [NW, NNW, N, NNE, NE] → (∀ x ∈ ns, x ∈ [NW, NNW, N, NNE, NE]) →
        ∀ x ∈ ns, (d.shape x).lines ≠ [] → (d.shape m).height = (d.shape x).height :=
      fun ns h1 h2 x hx hxne => hheight m h1 x (h2 x hx) hmne hxne
    have south : ∀ ns : List ShapeName, m ∈ [SW, SSW, S, SSE, SE] → (∀ x ∈ ns, x ∈ [SW, SSW, S, SSE, SE]) →
        ∀ x ∈ ns, (d.shape x).lines ≠ [] → (d.shape m).height = (d.shape x).height :=
      fun ns h1 h2 x hx hxne => hheight' m h1 x (h2 x hx) hmne hxne
    clear h3 hheight hheight'
    rcases hm with rfl | rfl | rfl | rfl | rfl | rfl <;> cases l
    · exact fin _ rfl (north _ (by decide) (by decide))
    · exact fin _ rfl (north _ (by decide) (by decide))
    · exact fin _ rfl (north _ (by decide) (by decide))
    · exact fin _ rfl (north _ (by decide) (by decide))
    · exact fin _ rfl (north _ (by decide) (by decide))
    · exact fin _ rfl (north _ (by decide) (by decide))
    · exact fin _ rfl (south _ (by decide) (by decide))
    · exact fin _ rfl (south _ (by decide) (by decide))
    · exact fin _ rfl (south _ (by decide) (by decide))
    · exact fin _ rfl (south _ (by decide) (by decide))
    · exact fin _ rfl (south _ (by decide) (by decide))
    · exact fin _ rfl (south _ (by decide) (by decide))
  have one : ∀ m, ∃ q, matchShape db d lines c (determineEmptySides d) m = .ok q := by
    have pair : ∀ {x : Res Nat}, (∃ r, x = .ok r) → ∃ q, (do .ok (← x, d) : Res (Nat × Design)) = .ok q := by
      rintro x ⟨r, rfl⟩; exact ⟨(r, d), rfl⟩
    have horiz : ∀ m ∈ [NNW, N, NNE, SSE, S, SSW], ∃ q, findHorizontalShape db d lines c (determineEmptySides d) m = .ok q := by
      intro m hm
      unfold findHorizontalShape
      split
      · exact ⟨_, rfl⟩
      · refine horizLoop_total db d hu lines c m (fun l r => hok m l r (.inr (.inr ?_))) hl (hask m hm) _ _ d (coherent_refl db hu) (by omega)
        simp only [List.mem_cons, List.not_mem_nil, or_false] at hm
        rcases hm with rfl | rfl | rfl | rfl | rfl | rfl <;> simp
    intro m
    unfold matchShape
    cases m <;> simp only
    all_goals first
      | exact horiz _ (by simp)
      | (refine pair ?_
         unfold findWestCorner
         split
         · exact ⟨0, rfl⟩
         · exact westCornerLoop_total db d lines c _ (hok _ _ _ (.inr (.inl rfl))) hl _ _ (by omega))
      | (refine pair ?_
         unfold findEastCorner
         split
         · exact ⟨0, rfl⟩
         · exact eastCornerLoop_total db d lines c _ (hok _ _ _ (.inl rfl)) hr _ _ (by omega))
      | (refine pair ?_
         unfold findVerticalWest
         dsimp only
         split
         · exact ⟨0, rfl⟩
         · split
           · exact ⟨0, rfl⟩
           · exact westLoop_total db d lines c _ (hok _ _ _ (.inr (.inl rfl))) hl _ _ (by omega))
      | (refine pair ?_
         unfold findVerticalEast
         dsimp only
         split
         · exact ⟨0, rfl⟩
         · split
           · exact ⟨0, rfl⟩
           · exact eastLoop_total db d lines c _ (hok _ _ _ (.inr (.inr (by simp)))) hr _ _ (by omega) _ _ (by omega))
  have all : ∀ (l : List ShapeName) (e : Design), Coherent db d e →
      ∃ q, matchShapes db lines c (determineEmptySides d) l e = .ok q := by
    intro l
    induction l with
    | nil => intro e _; exact ⟨_, rfl⟩
    | cons m l ih =>
      intro e he
      obtain ⟨q, hq⟩ := one m
      obtain ⟨_, e', h2, h3⟩ := matchShape_congr hu (coherent_refl db hu) he lines c _ m hq
      obtain ⟨q', hq'⟩ := ih e' h3
      unfold matchShapes
      exact ⟨(q.1 + q'.1, q'.2), by simp only [h2, Res.ok_bind, hq']⟩
  exact all _ d (coherent_refl db hu)

/-- C66: not every input line that ends like the right side of the box counts, although the comment of `find_vertical_east` says so:
two lines both end in `*`, but only one of them is counted.  On the left side both are. -/
theorem C66_east_disagrees :
    let lines := (mkInput ["****", "*a *", "*b *", "****"]).lines
    cmpShape sampleDb starDesign .literal E 0 = some (lit "*") ∧ lit "*" <:+ cmpEnd lines .literal 1 ∧ lit "*" <:+ cmpEnd lines .literal 2 ∧
    findVerticalEast sampleDb starDesign lines .literal (determineEmptySides starDesign) E = .ok 1 ∧
    findVerticalWest sampleDb starDesign lines .literal (determineEmptySides starDesign) W = .ok 2 := by
  decide +kernel

/-- C66: an elastic shape that occurs twice in an uninterrupted row is not found, although the comment of `find_horizontal_shape`
says so, if it occurs alone further left. -/
theorem C66_elastic_disagrees :
    OccursAt (lit "-+--") (lit "-") 2 ∧ OccursAt (lit "-+--") (lit "-") (2 + (lit "-").length) ∧ horizHit true (lit "-+--") (lit "-") = false := by
  refine ⟨⟨lit "-+", lit "-", by decide, by decide⟩, ⟨lit "-+-", [], by decide, by decide⟩, by decide⟩

/-- the lines of the sample design and of a text are analysed texts without escape sequences and wide blanks -/
theorem plain_analysed {db : CharDb} {b : Bxs} (h1 : fromUnicode db b.memory = some b) (h2 : ∀ c ∈ b.memory, c ≠ chEsc)
    (h3 : ∀ c ∈ b.memory, Blank db c → Spec.width db c = 1) :
    ∃ s v, Text s v ∧ fromUnicode db s = some b ∧ NarrowBlanks db v ∧ s = v :=
  ⟨b.memory, b.memory, Spec.Text.plain h2, h1, h3, rfl⟩

def hitLines : List Line :=
  ["..-=-=<>=-=-.", "O|         )", "|| ab      (", "||cd       )", "`'#########'"].map fun l => { text := fromUnicode sampleDb (lit l) }

example : ∃ s, Sees sampleDb sampleDesign hitLines .literal s ∧
    NumberOf (fun x : ShapeName × Nat × Nat => Hit s x.1 x.2.1 x.2.2) 12 := by
  have hm : (matchDesign sampleDb sampleDesign hitLines .literal).bind (fun p => .ok p.1) = .ok 12 := by decide +kernel
  cases hq : matchDesign sampleDb sampleDesign hitLines .literal with
  | fail x => rw [hq] at hm; cases hm
  | ub => rw [hq] at hm; cases hm
  | ok q =>
    rw [hq] at hm
    have h12 : q.1 = 12 := Res.ok.inj hm
    rw [← h12]
    refine C66_hits (d' := q.2) sampleDb_sane sampleDesign hitLines .literal _ (by intro n; cases n <;> exact ⟨rfl, rfl⟩)
      (by intro n; cases n <;> rfl) sampleDesign_good.shapes ?_ ?_ hq
    · intro n b hb
      have : fromUnicode sampleDb b.memory = some b ∧ (∀ c ∈ b.memory, c ≠ chEsc) ∧
          ∀ c ∈ b.memory, Blank sampleDb c → Spec.width sampleDb c = 1 := by
        revert b
        cases n <;> decide +kernel
      obtain ⟨s, v, a1, a2, a3, a4⟩ := plain_analysed this.1 this.2.1 this.2.2
      exact .inr ⟨s, v, a1, a2, a3, .inl a4⟩
    · have : ∀ ln ∈ hitLines, ∃ b, ln.text = some b ∧ fromUnicode sampleDb b.memory = some b ∧ (∀ c ∈ b.memory, c ≠ chEsc) ∧
          ∀ c ∈ b.memory, Blank sampleDb c → Spec.width sampleDb c = 1 := by
        have h : ∀ ln ∈ hitLines, (match ln.text with
            | some b => decide (fromUnicode sampleDb b.memory = some b ∧ (∀ c ∈ b.memory, c ≠ chEsc) ∧
              ∀ c ∈ b.memory, Blank sampleDb c → Spec.width sampleDb c = 1)
            | none => false) = true := by decide +kernel
        intro ln hln
        have := h ln hln
        cases ht : ln.text with
        | none => rw [ht] at this; cases this
        | some b => rw [ht] at this; exact ⟨b, rfl, of_decide_eq_true this⟩
      intro ln hln
      obtain ⟨b, h1, h2, h3, h4⟩ := this ln hln
      obtain ⟨s, v, a1, a2, a3, a4⟩ := plain_analysed h2 h3 h4
      exact ⟨b, s, v, h1, a1, a2, a3⟩

end Boxes
