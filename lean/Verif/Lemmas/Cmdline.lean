import Verif.Model.Cmdline
import Verif.Spec.Cmdline
import Verif.Lemmas.Query

/-! # Lemmas about the C library's number conversion and the option parsers -/
namespace Boxes
open Spec

set_option linter.unusedSimpArgs false

theorem digitsValue_foldl (ds : Str) : ∀ acc : Nat,
    ds.foldl (fun acc c => acc * 10 + (c - 0x30)) acc = acc * 10 ^ ds.length + number ds := by
  induction ds with
  | nil => intro acc; simp [number]
  | cons d rest ih =>
    intro acc
    have h0 : '0'.toNat = 0x30 := rfl
    simp only [List.foldl_cons, ih, number, List.length_cons, h0]
    rw [Nat.add_mul, Nat.pow_succ, Nat.mul_assoc, Nat.mul_comm 10, Nat.add_assoc]

theorem digitsValue_eq (ds : Str) : digitsValue ds = number ds := by
  unfold digitsValue
  rw [digitsValue_foldl]; simp

theorem isDigit_iff (c : Nat) : isDigit c = true ↔ Digit c := by
  unfold isDigit Digit
  have h0 : '0'.toNat = 0x30 := rfl
  have h9 : '9'.toNat = 0x39 := rfl
  simp [h0, h9]

theorem isSpaceC_iff (c : Nat) : isSpaceC c = true ↔ CSpace c := by
  unfold isSpaceC CSpace
  have h0 : ' '.toNat = 0x20 := rfl
  have h1 : '\t'.toNat = 0x09 := rfl
  have h2 : '\r'.toNat = 0x0d := rfl
  simp [h0, h1, h2]

theorem takeWhile_append_stop {p : Nat → Bool} : ∀ (a b : Str), (∀ c ∈ a, p c = true) → (∀ c ∈ b.head?, p c = false) →
    (a ++ b).takeWhile p = a ∧ (a ++ b).dropWhile p = b := by
  intro a
  induction a with
  | nil =>
    intro b _ hb
    cases b with
    | nil => simp
    | cons x y =>
      have := hb x (by simp)
      simp [List.takeWhile_cons, List.dropWhile_cons, this]
  | cons x y ih =>
    intro b ha hb
    have hx := ha x (by simp)
    have := ih b (fun c hc => ha c (by simp [hc])) hb
    simp [List.takeWhile_cons, List.dropWhile_cons, hx, this.1, this.2]

/-- the value a `long` takes for a number, and if this is a range error -/
def clamped (v : Int) (rest : Str) : Strtol :=
  if v > longMax then ⟨longMax, rest, true⟩
  else if v < -longMax - 1 then ⟨-longMax - 1, rest, true⟩
  else ⟨v, rest, false⟩

theorem digit_not_space {c : Nat} (h : Digit c) : isSpaceC c = false := by
  rw [← Bool.not_eq_true, isSpaceC_iff]
  intro hs
  unfold Digit at h
  unfold CSpace at hs
  have h0 : '0'.toNat = 0x30 := rfl
  have h9 : '9'.toNat = 0x39 := rfl
  have h1 : ' '.toNat = 0x20 := rfl
  have h2 : '\t'.toNat = 0x09 := rfl
  have h3 : '\r'.toNat = 0x0d := rfl
  omega

theorem strtol_begins {s : Str} {v : Int} {rest : Str} (h : Begins s v rest) : strtol s = clamped v rest := by
  obtain ⟨t, rfl, ⟨blanks, sign, ds, rfl, hb, hne, hd, hv⟩, hr⟩ := h
  have hdig : ∀ c ∈ ds, isDigit c = true := fun c hc => (isDigit_iff c).2 (hd c hc)
  have hrest : ∀ c ∈ rest.head?, isDigit c = false := by
    intro c hc
    rw [← Bool.not_eq_true, isDigit_iff]
    exact hr c hc
  have hblank : ∀ c ∈ blanks, isSpaceC c = true := fun c hc => (isSpaceC_iff c).2 (hb c hc)
  obtain ⟨d0, ds', rfl⟩ : ∃ d0 ds', ds = d0 :: ds' := by
    cases ds with
    | nil => exact absurd rfl hne
    | cons a b => exact ⟨a, b, rfl⟩
  have hd0 : Digit d0 := hd d0 (by simp)
  have hd0n : d0 ≠ chMinus ∧ d0 ≠ chPlus := by
    unfold Digit at hd0
    have h0 : '0'.toNat = 0x30 := rfl
    unfold chMinus chPlus
    omega
  obtain ⟨h4, h5⟩ := takeWhile_append_stop (p := isDigit) (d0 :: ds') rest hdig hrest
  have key : ∀ sg : Str, (∀ c ∈ (sg ++ ((d0 :: ds') ++ rest)).head?, isSpaceC c = false) →
      (blanks ++ sg ++ (d0 :: ds') ++ rest).dropWhile isSpaceC = sg ++ ((d0 :: ds') ++ rest) := by
    intro sg hsg
    have := (takeWhile_append_stop (p := isSpaceC) blanks (sg ++ ((d0 :: ds') ++ rest)) hblank hsg).2
    rw [← this]
    simp
  unfold strtol
  rcases hv with ⟨rfl, hv⟩ | ⟨rfl, hv⟩ | ⟨rfl, hv⟩
  · rw [key [] (by intro c hc; simp at hc; subst hc; exact digit_not_space hd0)]
    have e1 : (([] : Str) ++ ((d0 :: ds') ++ rest)).head? = some d0 := by simp
    have n1 : ¬ ((some d0 : Option Nat) = some chMinus ∨ (some d0 : Option Nat) = some chPlus) := by simp [hd0n.1, hd0n.2]
    have n2 : ((some d0 : Option Nat) == some chMinus) = false := by simp [hd0n.1]
    simp only [e1, if_neg n1, n2]
    rw [List.nil_append, h4, h5, digitsValue_eq]
    simp [clamped, hv]
  · rw [key ['+'.toNat] (by intro c hc; simp at hc; subst hc; rfl)]
    have e1 : (['+'.toNat] ++ ((d0 :: ds') ++ rest)).head? = some 0x2b := by simp
    have e2 : (['+'.toNat] ++ ((d0 :: ds') ++ rest)).drop 1 = (d0 :: ds') ++ rest := by simp
    have n1 : ((some 0x2b : Option Nat) = some chMinus ∨ (some 0x2b : Option Nat) = some chPlus) := by simp [chPlus]
    have n2 : ((some 0x2b : Option Nat) == some chMinus) = false := by decide
    simp only [e1, if_pos n1, n2]
    rw [e2, h4, h5, digitsValue_eq]
    simp [clamped, hv]
  · rw [key ['-'.toNat] (by intro c hc; simp at hc; subst hc; rfl)]
    have e1 : (['-'.toNat] ++ ((d0 :: ds') ++ rest)).head? = some 0x2d := by simp
    have e2 : (['-'.toNat] ++ ((d0 :: ds') ++ rest)).drop 1 = (d0 :: ds') ++ rest := by simp
    have n1 : ((some 0x2d : Option Nat) = some chMinus ∨ (some 0x2d : Option Nat) = some chPlus) := by simp [chMinus]
    have n2 : ((some 0x2d : Option Nat) == some chMinus) = true := by decide
    simp only [e1, if_pos n1, n2]
    rw [e2, h4, h5, digitsValue_eq]
    simp [clamped, hv]

theorem head_dropWhile_not {p : Nat → Bool} (s : Str) : ∀ c ∈ (s.dropWhile p).head?, p c = false := by
  intro c hc
  have := List.head?_dropWhile_not p s
  cases h : (s.dropWhile p).head? with
  | none => rw [h] at hc; cases hc
  | some x =>
    rw [h] at hc this
    simp at hc
    subst hc
    simpa using this

theorem strtol_cases (s : Str) :
    (∃ v rest, Begins s v rest ∧ strtol s = clamped v rest) ∨ (strtol s = ⟨0, s, false⟩ ∧ ∀ w rest, ¬ Begins s w rest) := by
  by_cases h : ∃ v rest, Begins s v rest
  · obtain ⟨v, rest, hb⟩ := h
    exact .inl ⟨v, rest, hb, strtol_begins hb⟩
  · right
    refine ⟨?_, fun w rest hb => h ⟨w, rest, hb⟩⟩
    unfold strtol
    simp only []
    by_cases hd : (List.takeWhile isDigit (if (s.dropWhile isSpaceC).head? = some chMinus ∨ (s.dropWhile isSpaceC).head? = some chPlus
        then (s.dropWhile isSpaceC).drop 1 else s.dropWhile isSpaceC)).isEmpty = true
    · rw [if_pos hd]
    · exfalso
      apply h
      have hblank : ∀ c ∈ s.takeWhile isSpaceC, CSpace c := fun c hc => (isSpaceC_iff c).1 (List.all_eq_true.1 List.all_takeWhile c hc)
      have hdig : ∀ u : Str, ∀ c ∈ u.takeWhile isDigit, Digit c :=
        fun u c hc => (isDigit_iff c).1 (List.all_eq_true.1 List.all_takeWhile c hc)
      have hstop : ∀ u : Str, ∀ c ∈ (u.dropWhile isDigit).head?, ¬ Digit c := by
        intro u c hc
        rw [← isDigit_iff, Bool.not_eq_true]
        exact head_dropWhile_not u c hc
      have hs : s = s.takeWhile isSpaceC ++ s.dropWhile isSpaceC := List.takeWhile_append_dropWhile.symm
      by_cases hm : (s.dropWhile isSpaceC).head? = some chMinus
      · rw [if_pos (.inl hm)] at hd
        cases hs1 : s.dropWhile isSpaceC with
        | nil => rw [hs1] at hm; cases hm
        | cons a u =>
          rw [hs1] at hm hd
          simp only [List.head?_cons, Option.some.injEq] at hm
          subst hm
          refine ⟨_, u.dropWhile isDigit, s.takeWhile isSpaceC ++ [chMinus] ++ u.takeWhile isDigit, ?_,
            ⟨_, _, _, rfl, hblank, ?_, hdig u, .inr (.inr ⟨rfl, rfl⟩)⟩, hstop u⟩
          · conv => lhs; rw [hs, hs1]
            simp
          · intro e; apply hd; simp [e]
      · by_cases hp : (s.dropWhile isSpaceC).head? = some chPlus
        · rw [if_pos (.inr hp)] at hd
          cases hs1 : s.dropWhile isSpaceC with
          | nil => rw [hs1] at hp; cases hp
          | cons a u =>
            rw [hs1] at hp hd
            simp only [List.head?_cons, Option.some.injEq] at hp
            subst hp
            refine ⟨_, u.dropWhile isDigit, s.takeWhile isSpaceC ++ [chPlus] ++ u.takeWhile isDigit, ?_,
              ⟨_, _, _, rfl, hblank, ?_, hdig u, .inr (.inl ⟨rfl, rfl⟩)⟩, hstop u⟩
            · conv => lhs; rw [hs, hs1]
              simp
            · intro e; apply hd; simp [e]
        · rw [if_neg (by simp [hm, hp])] at hd
          refine ⟨_, (s.dropWhile isSpaceC).dropWhile isDigit, s.takeWhile isSpaceC ++ [] ++ (s.dropWhile isSpaceC).takeWhile isDigit, ?_,
            ⟨_, _, _, rfl, hblank, ?_, hdig _, .inl ⟨rfl, rfl⟩⟩, hstop _⟩
          · conv => lhs; rw [hs]
            simp
          · intro e; apply hd; simp [e]

theorem strtol_no_begin {s : Str} (h : ∀ w rest, ¬ Begins s w rest) : strtol s = ⟨0, s, false⟩ := by
  rcases strtol_cases s with ⟨v, rest, hb, _⟩ | ⟨h1, _⟩
  · exact absurd hb (h v rest)
  · exact h1

theorem toInt_wraps (v : Int) : Wraps v (toInt v) := by
  unfold Wraps toInt
  refine ⟨by omega, by omega, ?_⟩
  omega

theorem wraps_unique {v w : Int} (h : Wraps v w) : toInt v = w := by
  unfold Wraps at h
  unfold toInt
  omega

theorem toInt_of_small {v : Int} (h0 : 0 ≤ v) (h1 : v < 2 ^ 31) : toInt v = v := by
  unfold toInt; omega

theorem clamped_range (v : Int) (rest : Str) : (clamped v rest).range = false ↔ Long v := by
  unfold clamped Long longMax
  by_cases h1 : v > 9223372036854775807
  · rw [if_pos h1]
    constructor
    · intro h; cases h
    · omega
  · rw [if_neg h1]
    by_cases h2 : v < -9223372036854775807 - 1
    · rw [if_pos h2]
      constructor
      · intro h; cases h
      · omega
    · rw [if_neg h2]
      exact ⟨fun _ => by omega, fun _ => rfl⟩

theorem clamped_value {v : Int} {rest : Str} (h : Long v) : (clamped v rest) = ⟨v, rest, false⟩ := by
  unfold Long at h
  unfold clamped longMax
  rw [if_neg (by omega), if_neg (by omega)]

theorem clamped_rest (v : Int) (rest : Str) : (clamped v rest).rest = rest := by
  unfold clamped
  split
  · rfl
  · split <;> rfl

/-! ## The last value in a list -/

theorem latest_nil {α β : Type} (f : α → Option β) (b : β) : latest f [] b = b := rfl

theorem latest_cons {α β : Type} (f : α → Option β) (x : α) (l : List α) (b : β) :
    latest f (x :: l) b = latest f l ((f x).getD b) := by
  unfold latest
  cases h : f x with
  | none => simp [List.filterMap_cons, h]
  | some y =>
    simp only [List.filterMap_cons, h]
    cases h2 : l.filterMap f with
    | nil => simp
    | cons z zs => simp [List.getLast?_cons]

/-! ## Padding -/

theorem covers_some_iff (c : Nat) : (∃ e, Covers c e) ↔
    c = 0x61 ∨ c = 0x41 ∨ c = 0x68 ∨ c = 0x48 ∨ c = 0x76 ∨ c = 0x56 ∨ c = 0x74 ∨ c = 0x54 ∨ c = 0x6c ∨ c = 0x4c ∨
      c = 0x62 ∨ c = 0x42 ∨ c = 0x72 ∨ c = 0x52 := by
  constructor
  · rintro ⟨e, h⟩
    cases e <;> simp [Covers, Either] at h <;> omega
  · rintro (h | h | h | h | h | h | h | h | h | h | h | h | h | h) <;> subst h
    · exact ⟨.top, by simp [Covers, Either]⟩
    · exact ⟨.top, by simp [Covers, Either]⟩
    · exact ⟨.left, by simp [Covers, Either]⟩
    · exact ⟨.left, by simp [Covers, Either]⟩
    · exact ⟨.top, by simp [Covers, Either]⟩
    · exact ⟨.top, by simp [Covers, Either]⟩
    · exact ⟨.top, by simp [Covers, Either]⟩
    · exact ⟨.top, by simp [Covers, Either]⟩
    · exact ⟨.left, by simp [Covers, Either]⟩
    · exact ⟨.left, by simp [Covers, Either]⟩
    · exact ⟨.bottom, by simp [Covers, Either]⟩
    · exact ⟨.bottom, by simp [Covers, Either]⟩
    · exact ⟨.right, by simp [Covers, Either]⟩
    · exact ⟨.right, by simp [Covers, Either]⟩

/-- the padding after an area -/
def areaSet (a : Area) (p : Sides Int) : Sides Int :=
  ⟨(a.on .top).getD p.top, (a.on .right).getD p.right, (a.on .bottom).getD p.bottom, (a.on .left).getD p.left⟩

theorem setArea_eq (p : Sides Int) (c : Nat) (t : Str) (size : Int) (h : ∃ e, Covers c e) :
    setArea p c size = some (areaSet ⟨c, t, size⟩ p) := by
  rw [covers_some_iff] at h
  rcases h with h | h | h | h | h | h | h | h | h | h | h | h | h | h <;> subst h <;>
    simp [setArea, areaSet, Area.on, Covers, Either]

theorem setArea_none (p : Sides Int) (c : Nat) (size : Int) (h : ¬ ∃ e, Covers c e) : setArea p c size = none := by
  rw [covers_some_iff] at h
  unfold setArea
  repeat' rw [if_neg (by omega)]

theorem not_begins_letter {c : Nat} {u : Str} (h : ∃ e, Covers c e) : ∀ w rest, ¬ Begins (c :: u) w rest := by
  rintro w rest ⟨t, ht, ⟨blanks, sign, ds, rfl, hb, hne, hd, hv⟩, _⟩
  rw [covers_some_iff] at h
  have h0 : '0'.toNat = 0x30 := rfl
  have h9 : '9'.toNat = 0x39 := rfl
  have h1 : ' '.toNat = 0x20 := rfl
  have h2 : '\t'.toNat = 0x09 := rfl
  have h3 : '\r'.toNat = 0x0d := rfl
  have h4 : '+'.toNat = 0x2b := rfl
  have h5 : '-'.toNat = 0x2d := rfl
  cases blanks with
  | cons b bs =>
    have := hb b (by simp)
    unfold CSpace at this
    simp at ht
    omega
  | nil =>
    rcases hv with ⟨rfl, _⟩ | ⟨rfl, _⟩ | ⟨rfl, _⟩
    · cases ds with
      | nil => exact hne rfl
      | cons d ds =>
        have := hd d (by simp)
        unfold Digit at this
        simp at ht
        omega
    · simp at ht; omega
    · simp at ht; omega

theorem numeral_ne_nil {t : Str} {v : Int} (h : Numeral t v) : t ≠ [] := by
  obtain ⟨b, s, ds, rfl, _, hne, _⟩ := h
  intro e
  apply hne
  simp at e
  exact e.2.2

/-- the padding after a list of areas -/
def areasSet (l : List Area) (p : Sides Int) : Sides Int :=
  ⟨latest (Area.on .top) l p.top, latest (Area.on .right) l p.right, latest (Area.on .bottom) l p.bottom,
    latest (Area.on .left) l p.left⟩

theorem areasSet_cons (a : Area) (l : List Area) (p : Sides Int) : areasSet (a :: l) p = areasSet l (areaSet a p) := by
  unfold areasSet areaSet
  simp only [latest_cons]

theorem areasText_cons (a : Area) (l : List Area) : areasText (a :: l) = a.letter :: (a.text ++ areasText l) := by
  simp [areasText]

theorem areaLoop_iff : ∀ (fuel : Nat) (s : Str) (p p' : Sides Int), s.length ≤ fuel →
    (areaLoop fuel p s = some p' ↔
      ∃ l, s = areasText l ∧ (∀ a ∈ l, a.Tolerated) ∧ (∀ a ∈ l.getLast?, a.text ≠ []) ∧ p' = areasSet l p) := by
  intro fuel
  induction fuel with
  | zero =>
    intro s p p' hs
    have hs : s = [] := by cases s with
      | nil => rfl
      | cons a b => simp at hs
    subst hs
    constructor
    · intro h
      simp only [areaLoop, Option.some.injEq] at h
      exact ⟨[], rfl, by simp, by simp, by simp [areasSet, latest_nil, h]⟩
    · rintro ⟨l, h1, _, _, h4⟩
      cases l with
      | nil => simp [areaLoop, h4, areasSet, latest_nil]
      | cons a l => rw [areasText_cons] at h1; cases h1
  | succ fuel ih =>
    intro s p p' hs
    cases s with
    | nil =>
      constructor
      · intro h
        simp only [areaLoop, Option.some.injEq] at h
        exact ⟨[], rfl, by simp, by simp, by simp [areasSet, latest_nil, h]⟩
      · rintro ⟨l, h1, _, _, h4⟩
        cases l with
        | nil => simp [areaLoop, h4, areasSet, latest_nil]
        | cons a l => rw [areasText_cons] at h1; cases h1
    | cons c rest =>
      simp only [List.length_cons] at hs
      have hdef : areaLoop (fuel + 1) p (c :: rest) =
          if rest.isEmpty then none
          else if (strtol rest).range = true ∨ toInt (strtol rest).value < 0 then none
          else (setArea p c (toInt (strtol rest).value)).bind (fun p => areaLoop fuel p (strtol rest).rest) := rfl
      rw [hdef]
      constructor
      · intro h
        by_cases he : rest.isEmpty = true
        · rw [if_pos he] at h; cases h
        rw [if_neg he] at h
        by_cases hr : (strtol rest).range = true ∨ toInt (strtol rest).value < 0
        · rw [if_pos hr] at h; cases h
        rw [if_neg hr] at h
        have hc : ∃ e, Covers c e := by
          apply Classical.byContradiction
          intro hc
          rw [setArea_none p c _ hc] at h
          cases h
        rcases strtol_cases rest with ⟨v, r, hb, hst⟩ | ⟨hst, _⟩
        · have hlong : Long v := by
            rw [← clamped_range v r, ← hst]
            cases hh : (strtol rest).range with
            | false => rfl
            | true => exact absurd (.inl hh) hr
          rw [clamped_value hlong] at hst
          obtain ⟨t, hrt, hnum, hstop⟩ := hb
          rw [setArea_eq p c t _ hc, hst] at h
          rw [hst] at hr
          simp only [Option.bind_some] at h
          have hlen : r.length ≤ fuel := by rw [hrt] at hs; simp at hs; omega
          obtain ⟨l, h1, h2, h3, h4⟩ := (ih r _ p' hlen).1 h
          refine ⟨⟨c, t, toInt v⟩ :: l, ?_, ?_, ?_, ?_⟩
          · rw [areasText_cons, ← h1, hrt]
          · intro a ha
            rcases List.mem_cons.1 ha with rfl | ha
            · exact ⟨hc, .inr ⟨v, hnum, hlong, toInt_wraps v, by
                have : ¬ toInt v < 0 := fun hh => hr (.inr hh)
                show 0 ≤ toInt v
                omega⟩⟩
            · exact h2 a ha
          · intro a ha
            cases l with
            | nil =>
              simp at ha; subst ha
              exact numeral_ne_nil hnum
            | cons b l =>
              rw [List.getLast?_cons_cons] at ha
              exact h3 a ha
          · rw [areasSet_cons, h4]
        · rw [setArea_eq p c [] _ hc, hst] at h
          simp only [Option.bind_some] at h
          have hz : toInt 0 = 0 := by decide
          rw [hz] at h
          obtain ⟨l, h1, h2, h3, h4⟩ := (ih rest _ p' (by omega)).1 h
          refine ⟨⟨c, [], 0⟩ :: l, ?_, ?_, ?_, ?_⟩
          · rw [areasText_cons, ← h1]; rfl
          · intro a ha
            rcases List.mem_cons.1 ha with rfl | ha
            · exact ⟨hc, .inl ⟨rfl, rfl⟩⟩
            · exact h2 a ha
          · intro a ha
            cases l with
            | nil => rw [h1] at he; simp [areasText] at he
            | cons b l =>
              rw [List.getLast?_cons_cons] at ha
              exact h3 a ha
          · rw [areasSet_cons, h4]
      · rintro ⟨l, h1, h2, h3, h4⟩
        cases l with
        | nil => simp [areasText] at h1
        | cons a l =>
          rw [areasText_cons] at h1
          simp only [List.cons.injEq] at h1
          obtain ⟨hca, hrest⟩ := h1
          obtain ⟨hc, hsz⟩ := h2 a (by simp)
          rw [← hca] at hc
          have hl : ∀ x ∈ l, x.Tolerated := fun x hx => h2 x (by simp [hx])
          have hlast : ∀ x ∈ l.getLast?, x.text ≠ [] := by
            intro x hx
            cases l with
            | nil => cases hx
            | cons b l => exact h3 x (by rw [List.getLast?_cons_cons]; exact hx)
          have hletter : ∀ x u, areasText l = x :: u → ∃ e, Covers x e := by
            intro x u hxu
            cases l with
            | nil => simp [areasText] at hxu
            | cons b l =>
              rw [areasText_cons] at hxu
              simp only [List.cons.injEq] at hxu
              rw [← hxu.1]
              exact (hl b (by simp)).1
          have harea : (⟨c, a.text, a.size⟩ : Area) = a := by rw [hca]
          rcases hsz with ⟨ht, hz⟩ | ⟨v, hnum, hlong, hwrap, hpos⟩
          · rw [ht, List.nil_append] at hrest
            cases hrl : rest with
            | nil =>
              exfalso
              cases l with
              | nil => exact h3 a (by simp) ht
              | cons b l => rw [hrl, areasText_cons] at hrest; cases hrest
            | cons x u =>
              have hx := hletter x u (by rw [← hrest, hrl])
              have hst := strtol_no_begin (not_begins_letter (u := u) hx)
              rw [hst]
              have hz' : toInt 0 = 0 := by decide
              simp only [hz']
              rw [if_neg (by simp), if_neg (by simp), setArea_eq p c a.text _ hc]
              simp only [Option.bind_some]
              rw [← hz, harea]
              refine (ih (x :: u) _ p' (by rw [← hrl]; omega)).2 ⟨l, by rw [← hrest, hrl], hl, hlast, ?_⟩
              rw [h4, areasSet_cons]
          · have hb : Begins rest v (areasText l) := by
              refine ⟨a.text, hrest, hnum, ?_⟩
              intro x hx
              cases hxl : areasText l with
              | nil => rw [hxl] at hx; cases hx
              | cons y u =>
                rw [hxl] at hx
                simp at hx
                subst hx
                have := hletter y u hxl
                rw [covers_some_iff] at this
                have h0 : '0'.toNat = 0x30 := rfl
                have h9 : '9'.toNat = 0x39 := rfl
                unfold Digit
                omega
            have hst := strtol_begins hb
            rw [clamped_value hlong] at hst
            rw [hst]
            have hw := wraps_unique hwrap
            simp only [hw]
            have hne : ¬ (rest.isEmpty = true) := by
              intro hh
              have hh : rest = [] := by simpa using hh
              rw [hh] at hrest
              have := numeral_ne_nil hnum
              cases ht : a.text with
              | nil => exact this ht
              | cons x y => rw [ht] at hrest; cases hrest
            rw [if_neg hne, if_neg (by simp; omega), setArea_eq p c a.text _ hc]
            simp only [Option.bind_some]
            rw [harea]
            have hlen : (areasText l).length ≤ fuel := by
              have := congrArg List.length hrest
              simp at this
              omega
            refine (ih (areasText l) _ p' hlen).2 ⟨l, rfl, hl, hlast, ?_⟩
            rw [h4, areasSet_cons]

/-! ## Alignment -/

/-- the options after the parts of an alignment -/
def placed (l : List (Str × Placing)) (o : Opt) : Opt :=
  { o with
    halign := latest (fun e => e.2.halign) l o.halign
    valign := latest (fun e => e.2.valign) l o.valign
    justify := latest (fun e => e.2.just) l o.justify }

theorem placed_cons (e : Str × Placing) (l : List (Str × Placing)) (o : Opt) : placed (e :: l) o = placed l (placed [e] o) := by
  unfold placed
  simp only [latest_cons, latest_nil]

theorem hLetter_iff (c : Nat) (x : Char) : hLetter c = some x ↔ x ∈ ['l', 'c', 'r'] ∧ Either x c := by
  unfold hLetter Either
  constructor
  · intro h
    split at h
    · cases h; simpa using ‹_›
    · split at h
      · cases h; simpa using ‹_›
      · split at h
        · cases h; simpa using ‹_›
        · cases h
  · rintro ⟨hx, h⟩
    simp at hx
    rcases hx with rfl | rfl | rfl <;> rcases h with rfl | rfl <;> rfl

theorem vLetter_iff (c : Nat) (x : Char) : vLetter c = some x ↔ x ∈ ['t', 'c', 'b'] ∧ Either x c := by
  unfold vLetter Either
  constructor
  · intro h
    split at h
    · cases h; simpa using ‹_›
    · split at h
      · cases h; simpa using ‹_›
      · split at h
        · cases h; simpa using ‹_›
        · cases h
  · rintro ⟨hx, h⟩
    simp at hx
    rcases hx with rfl | rfl | rfl <;> rcases h with rfl | rfl <;> rfl

theorem mem_shorthand (c : Nat) : c ∈ lit "lLcCrR" ↔ c = 0x6c ∨ c = 0x4c ∨ c = 0x63 ∨ c = 0x43 ∨ c = 0x72 ∨ c = 0x52 := by
  have : lit "lLcCrR" = [0x6c, 0x4c, 0x63, 0x43, 0x72, 0x52] := by decide
  rw [this]; simp

/-- one round of the loop -/
theorem alignLoop_step (fuel : Nat) (o o' : Opt) (c : Nat) (rest : Str) :
    alignLoop (fuel + 1) o (c :: rest) = some o' ↔
      ∃ t x tail, c :: rest = t ++ tail ∧ Spells t x ∧ alignLoop fuel (placed [(t, x)] o) tail = some o' := by
  have h2 : ∀ (t : Str) (x : Placing), Spells t x → ∃ a u, t = a :: u := by
    intro t x h; cases h <;> exact ⟨_, _, rfl⟩
  constructor
  · intro h
    unfold alignLoop at h
    split at h
    · cases h
    rename_i hne
    split at h
    · rename_i hc
      cases rest with
      | nil => exfalso; apply hne; rw [mem_shorthand]; simp; omega
      | cons d tail =>
        simp only [List.headD_cons, List.drop_succ_cons, List.drop_zero] at h
        cases hx : hLetter d with
        | none => simp [hx] at h
        | some x =>
          simp only [hx, Option.bind_eq_bind, Option.bind_some] at h
          obtain ⟨hx1, hx2⟩ := (hLetter_iff d x).1 hx
          exact ⟨[c, d], .horizontal x, tail, rfl, .horizontal (by simpa [Either] using hc) hx1 hx2, h⟩
    split at h
    · rename_i hc
      cases rest with
      | nil => exfalso; apply hne; rw [mem_shorthand]; simp; omega
      | cons d tail =>
        simp only [List.headD_cons, List.drop_succ_cons, List.drop_zero] at h
        cases hx : vLetter d with
        | none => simp [hx] at h
        | some x =>
          simp only [hx, Option.bind_eq_bind, Option.bind_some] at h
          obtain ⟨hx1, hx2⟩ := (vLetter_iff d x).1 hx
          exact ⟨[c, d], .vertical x, tail, rfl, .vertical (by simpa [Either] using hc) hx1 hx2, h⟩
    split at h
    · rename_i hc
      cases rest with
      | nil => exfalso; apply hne; rw [mem_shorthand]; simp; omega
      | cons d tail =>
        simp only [List.headD_cons, List.drop_succ_cons, List.drop_zero] at h
        cases hx : hLetter d with
        | none => simp [hx] at h
        | some x =>
          simp only [hx, Option.bind_eq_bind, Option.bind_some] at h
          obtain ⟨hx1, hx2⟩ := (hLetter_iff d x).1 hx
          exact ⟨[c, d], .justify x, tail, rfl, .justify (by simpa [Either] using hc) hx1 hx2, h⟩
    split at h
    · rename_i hc
      exact ⟨[c], .shorthand 'l', rest, rfl, .shorthand (by simp) (by simpa [Either] using hc), h⟩
    split at h
    · rename_i hc
      exact ⟨[c], .shorthand 'r', rest, rfl, .shorthand (by simp) (by simpa [Either] using hc), h⟩
    split at h
    · rename_i hc
      exact ⟨[c], .shorthand 'c', rest, rfl, .shorthand (by simp) (by simpa [Either] using hc), h⟩
    · cases h
  · rintro ⟨t, x, tail, ht, hsp, h⟩
    cases hsp with
    | @horizontal a b x ha hx hb =>
      simp only [List.cons_append, List.nil_append, List.cons.injEq] at ht
      obtain ⟨rfl, rfl⟩ := ht
      have ha : c = 0x68 ∨ c = 0x48 := by simpa [Either] using ha
      unfold alignLoop
      rw [if_neg (by simp), if_pos ha]
      simp only [List.headD_cons, (hLetter_iff b x).2 ⟨hx, hb⟩, Option.bind_eq_bind, Option.bind_some, List.drop_succ_cons, List.drop_zero]
      exact h
    | @vertical a b x ha hx hb =>
      simp only [List.cons_append, List.nil_append, List.cons.injEq] at ht
      obtain ⟨rfl, rfl⟩ := ht
      have ha : c = 0x76 ∨ c = 0x56 := by simpa [Either] using ha
      unfold alignLoop
      rw [if_neg (by simp), if_neg (by omega), if_pos ha]
      simp only [List.headD_cons, (vLetter_iff b x).2 ⟨hx, hb⟩, Option.bind_eq_bind, Option.bind_some, List.drop_succ_cons, List.drop_zero]
      exact h
    | @justify a b x ha hx hb =>
      simp only [List.cons_append, List.nil_append, List.cons.injEq] at ht
      obtain ⟨rfl, rfl⟩ := ht
      have ha : c = 0x6a ∨ c = 0x4a := by simpa [Either] using ha
      unfold alignLoop
      rw [if_neg (by simp), if_neg (by omega), if_neg (by omega), if_pos ha]
      simp only [List.headD_cons, (hLetter_iff b x).2 ⟨hx, hb⟩, Option.bind_eq_bind, Option.bind_some, List.drop_succ_cons, List.drop_zero]
      exact h
    | @shorthand a x hx ha =>
      simp only [List.cons_append, List.nil_append, List.cons.injEq] at ht
      obtain ⟨rfl, rfl⟩ := ht
      simp at hx
      unfold alignLoop
      rcases hx with rfl | rfl | rfl
      · have ha : c = 0x6c ∨ c = 0x4c := by simpa [Either] using ha
        rw [if_neg (by rw [mem_shorthand]; simp; omega), if_neg (by omega), if_neg (by omega), if_neg (by omega), if_pos ha]
        exact h
      · have ha : c = 0x63 ∨ c = 0x43 := by simpa [Either] using ha
        rw [if_neg (by rw [mem_shorthand]; simp; omega), if_neg (by omega), if_neg (by omega), if_neg (by omega), if_neg (by omega),
          if_neg (by omega), if_pos ha]
        exact h
      · have ha : c = 0x72 ∨ c = 0x52 := by simpa [Either] using ha
        rw [if_neg (by rw [mem_shorthand]; simp; omega), if_neg (by omega), if_neg (by omega), if_neg (by omega), if_neg (by omega), if_pos ha]
        exact h

theorem spells_length {t : Str} {x : Placing} (h : Spells t x) : 0 < t.length := by cases h <;> simp

theorem alignLoop_iff : ∀ (fuel : Nat) (s : Str) (o o' : Opt), s.length ≤ fuel →
    (alignLoop fuel o s = some o' ↔ ∃ l : List (Str × Placing), s = (l.map (fun e => e.1)).flatten ∧ (∀ e ∈ l, Spells e.1 e.2) ∧
      o' = placed l o) := by
  intro fuel
  have hnil : ∀ (fuel : Nat) (o o' : Opt), alignLoop fuel o [] = some o' ↔ ∃ l : List (Str × Placing),
      [] = (l.map (fun e => e.1)).flatten ∧ (∀ e ∈ l, Spells e.1 e.2) ∧ o' = placed l o := by
    intro fuel o o'
    have : alignLoop fuel o [] = some o := by cases fuel <;> rfl
    rw [this]
    constructor
    · intro h; cases h; exact ⟨[], rfl, by simp, rfl⟩
    · rintro ⟨l, h1, h2, h3⟩
      cases l with
      | nil => rw [h3]; rfl
      | cons e l =>
        have := spells_length (h2 e (by simp))
        have h1 := congrArg List.length h1
        simp at h1
        omega
  induction fuel with
  | zero =>
    intro s o o' hs
    cases s with
    | nil => exact hnil 0 o o'
    | cons a b => simp at hs
  | succ fuel ih =>
    intro s o o' hs
    cases s with
    | nil => exact hnil _ o o'
    | cons c rest =>
      rw [alignLoop_step]
      constructor
      · rintro ⟨t, x, tail, ht, hsp, h⟩
        have := spells_length hsp
        have hl := congrArg List.length ht
        simp at hl hs
        obtain ⟨l, h1, h2, h3⟩ := (ih tail _ o' (by omega)).1 h
        refine ⟨(t, x) :: l, ?_, ?_, ?_⟩
        · rw [ht, h1]; simp
        · intro e he
          rcases List.mem_cons.1 he with rfl | he
          · exact hsp
          · exact h2 e he
        · rw [h3, ← placed_cons]
      · rintro ⟨l, h1, h2, h3⟩
        cases l with
        | nil => cases h1
        | cons e l =>
          have hsp := h2 e (by simp)
          have := spells_length hsp
          have hl := congrArg List.length h1
          simp at hl hs
          refine ⟨e.1, e.2, (l.map (fun e => e.1)).flatten, by simpa using h1, hsp, ?_⟩
          refine (ih _ _ o' (by simp; omega)).2 ⟨l, rfl, fun x hx => h2 x (by simp [hx]), ?_⟩
          rw [h3, placed_cons]

end Boxes
