import Verif.Props.Cmdline

/-!
# C37, C58 and C59: the command line as a whole
-/
namespace Boxes
open Spec

set_option linter.unusedSimpArgs false

namespace Spec

/-- `x` is the last option that satisfies `P` -/
def LastOption (P : Option' → Prop) (opts : List Option') (x : Option') : Prop :=
  ∃ pre post, opts = pre ++ x :: post ∧ P x ∧ ∀ y ∈ post, ¬ P y

/-- The value `v` was determined by the last option that satisfies `P`; without such an option it is the value `v₀`. -/
def ByLast {β : Type} (P : Option' → Prop) (R : Option' → β → Prop) (v₀ : β) (opts : List Option') (v : β) : Prop :=
  (∃ x, LastOption P opts x ∧ R x v) ∨ ((∀ y ∈ opts, ¬ P y) ∧ v = v₀)

/-- the arguments of all options of one kind, one after the other -/
def allArguments (f : Option' → Option Str) (opts : List Option') : Str := (opts.filterMap f).flatten

def paddingArgument : Option' → Option Str
  | .padding s => some s
  | _ => none
def alignArgument : Option' → Option Str
  | .align s => some s
  | _ => none

end Spec

set_option hygiene false in
/-- goes through all options, and closes the goals of those that do not matter -/
local macro "through_options" : tactic => `(tactic| (
  intro a x a' h
  rcases handleOption_cases h with ⟨s, o, rfl, ho, rfl⟩ | ⟨s, rfl, hs, rfl⟩ | ⟨rfl, rfl⟩ | ⟨rfl, rfl⟩ | ⟨s, rfl, rfl⟩ |
            ⟨s, rfl, ho⟩ | ⟨s, rfl, rfl⟩ | ⟨s, o, rfl, ho, rfl⟩ | ⟨s, o, rfl, ho, rfl⟩ | ⟨rfl, rfl⟩ | ⟨rfl, rfl⟩ | ⟨rfl, rfl⟩ | ⟨rfl, rfl⟩ |
            ⟨s, rfl, rfl⟩ | ⟨s, o, rfl, ho, rfl⟩ | ⟨s, q, rfl, _, rfl⟩ | ⟨rfl, rfl⟩ | ⟨s, o, rfl, ho, rfl⟩ | ⟨s, o, rfl, ho, rfl⟩ | ⟨s, rfl, ho⟩
  all_goals first
    | rfl
    | (obtain ⟨_, _, _, rfl⟩ := alignment_frame ho; rfl)
    | (obtain ⟨_, rfl⟩ := eol_frame ho; rfl)
    | (obtain ⟨_, rfl⟩ := indent_frame ho; rfl)
    | (obtain ⟨_, rfl⟩ := kill_frame ho; rfl)
    | (obtain ⟨_, rfl⟩ := padding_frame ho; rfl)
    | (obtain ⟨_, _, rfl⟩ := size_frame ho; rfl)
    | (obtain ⟨_, _, rfl⟩ := tabs_frame ho; rfl)
    | (obtain ⟨_, _, _, rfl⟩ := extra_frame ho; rfl)
    | (split <;> rfl)))

set_option hygiene false in
/-- the same for settings that only the options `hx` speaks about change; leaves the goals of those options -/
local macro "other_options" : tactic => `(tactic| (
  intro a x a' h hx
  rcases handleOption_cases h with ⟨s, o, rfl, ho, rfl⟩ | ⟨s, rfl, hs, rfl⟩ | ⟨rfl, rfl⟩ | ⟨rfl, rfl⟩ | ⟨s, rfl, rfl⟩ |
            ⟨s, rfl, ho⟩ | ⟨s, rfl, rfl⟩ | ⟨s, o, rfl, ho, rfl⟩ | ⟨s, o, rfl, ho, rfl⟩ | ⟨rfl, rfl⟩ | ⟨rfl, rfl⟩ | ⟨rfl, rfl⟩ | ⟨rfl, rfl⟩ |
            ⟨s, rfl, rfl⟩ | ⟨s, o, rfl, ho, rfl⟩ | ⟨s, q, rfl, _, rfl⟩ | ⟨rfl, rfl⟩ | ⟨s, o, rfl, ho, rfl⟩ | ⟨s, o, rfl, ho, rfl⟩ | ⟨s, rfl, ho⟩
  all_goals try first
    | rfl
    | (obtain ⟨_, _, _, rfl⟩ := alignment_frame ho; rfl)
    | (obtain ⟨_, rfl⟩ := eol_frame ho; rfl)
    | (obtain ⟨_, rfl⟩ := indent_frame ho; rfl)
    | (obtain ⟨_, rfl⟩ := kill_frame ho; rfl)
    | (obtain ⟨_, rfl⟩ := padding_frame ho; rfl)
    | (obtain ⟨_, _, rfl⟩ := size_frame ho; rfl)
    | (obtain ⟨_, _, rfl⟩ := tabs_frame ho; rfl)
    | (obtain ⟨_, _, _, rfl⟩ := extra_frame ho; rfl)
    | (split <;> rfl)))

theorem setting_byLast {β : Type} (π : Args → β) (P : Option' → Prop) (R : Option' → β → Prop)
    (hset : ∀ a x a', handleOption a x = some a' → P x → R x (π a'))
    (hkeep : ∀ a x a', handleOption a x = some a' → ¬ P x → π a' = π a) :
    ∀ (opts : List Option') (a b : Args), optionLoop opts a = some (b, false) → ByLast P R (π a) opts (π b) := by
  intro opts
  induction opts with
  | nil =>
    intro a b h
    simp only [optionLoop, Option.some.injEq, Prod.mk.injEq, and_true] at h
    subst h
    exact .inr ⟨by simp, rfl⟩
  | cons x rest ih =>
    intro a b h
    obtain ⟨a', h1, h2⟩ := optionLoop_cons h
    rcases ih a' b h2 with ⟨y, ⟨pre, post, e, hp, hn⟩, hr⟩ | ⟨hn, e⟩
    · exact .inl ⟨y, ⟨x :: pre, post, by rw [e]; rfl, hp, hn⟩, hr⟩
    · by_cases hx : P x
      · exact .inl ⟨x, ⟨[], rest, rfl, hx, hn⟩, by rw [e]; exact hset a x a' h1 hx⟩
      · refine .inr ⟨?_, by rw [e]; exact hkeep a x a' h1 hx⟩
        intro y hy
        rcases List.mem_cons.1 hy with rfl | hy
        · exact hx
        · exact hn y hy

/-! ## C58 -/

/-- C58: the texts given with the options for the design, the configuration file, and the encoding, and the use of colours: the last
option counts -/
theorem C58_last (opts : List Option') (a : Args) (h : optionLoop opts createNewOpt = some (a, false)) :
    a.cld = latest (fun x => match x with | .create s => some (some s) | _ => none) opts none ∧
    a.design = latest (fun x => match x with | .design s => some (some s) | _ => none) opts none ∧
    a.f = latest (fun x => match x with | .config s => some (some s) | _ => none) opts none ∧
    a.encoding = latest (fun x => match x with | .encoding s => some (some s) | _ => none) opts none ∧
    a.color = latest (fun x => match x with | .color => some 2 | .noColor => some 0 | _ => none) opts 1 := by
  refine ⟨?_, ?_, ?_, ?_, ?_⟩
  · refine setting_latest (·.cld) _ ?_ opts createNewOpt a h
    through_options
  · refine setting_latest (·.design) _ ?_ opts createNewOpt a h
    through_options
  · refine setting_latest (·.f) _ ?_ opts createNewOpt a h
    through_options
  · refine setting_latest (·.encoding) _ ?_ opts createNewOpt a h
    through_options
  · refine setting_latest (·.color) _ ?_ opts createNewOpt a h
    through_options

theorem latest_true (P : Option' → Bool) (opts : List Option') (b : Bool) :
    latest (fun x => if P x then some true else none) opts b = (b || opts.any P) := by
  induction opts generalizing b with
  | nil => simp [latest_nil]
  | cons x rest ih =>
    rw [latest_cons, ih]
    cases hp : P x <;> simp [hp]

/-- C58: switches are on exactly if one of their options is there, wherever it is -/
theorem C58_switches (opts : List Option') (a : Args) (h : optionLoop opts createNewOpt = some (a, false)) :
    (a.l = true ↔ .list ∈ opts) ∧
    (a.opt.r = true ↔ .remove ∈ opts ∨ .mend ∈ opts) ∧
    (a.opt.mend = if .mend ∈ opts then 2 else 0) ∧
    (a.byUser = true ↔ ∃ s, .design s ∈ opts ∨ .create s ∈ opts) ∧
    (a.eolOverridden = true ↔ ∃ s, .eol s ∈ opts) ∧
    a.help = false ∧ a.version = false := by
  have hsw : ∀ (π : Args → Bool) (P : Option' → Bool), π createNewOpt = false →
      (∀ a x a', handleOption a x = some a' → π a' = ((fun x => if P x then some true else none) x).getD (π a)) →
      (π a = true ↔ ∃ x ∈ opts, P x = true) := by
    intro π P h0 hst
    have := setting_latest π _ hst opts createNewOpt a h
    rw [this, latest_true, h0]
    simp
  refine ⟨?_, ?_, ?_, ?_, ?_, ?_, ?_⟩
  · have := hsw (·.l) (fun x => match x with | .list => true | _ => false) rfl (by through_options)
    rw [this]
    constructor
    · rintro ⟨x, hx, hp⟩
      cases x <;> first | exact hx | cases hp
    · intro hx; exact ⟨_, hx, rfl⟩
  · have := hsw (·.opt.r) (fun x => match x with | .remove => true | .mend => true | _ => false) rfl (by through_options)
    rw [this]
    constructor
    · rintro ⟨x, hx, hp⟩
      cases x <;> first | exact .inl hx | exact .inr hx | cases hp
    · rintro (hx | hx)
      · exact ⟨_, hx, rfl⟩
      · exact ⟨_, hx, rfl⟩
  · have := setting_latest (·.opt.mend) (fun x => match x with | .mend => some 2 | _ => none) (by through_options) opts createNewOpt a h
    rw [this]
    have key : ∀ (opts : List Option') (b : Int), latest (fun x => match x with | .mend => some (2 : Int) | _ => none) opts b =
        if Option'.mend ∈ opts then 2 else b := by
      intro opts
      induction opts with
      | nil => intro b; rfl
      | cons x rest ih =>
        intro b
        rw [latest_cons, ih]
        by_cases hx : x = .mend
        · subst hx; simp
        · have : (Option'.mend ∈ x :: rest) ↔ Option'.mend ∈ rest := by
            simp only [List.mem_cons]
            exact ⟨fun hh => hh.resolve_left (fun e => hx e.symm), .inr⟩
          simp only [this]
          cases x <;> first | rfl | exact absurd rfl hx
    exact key opts 0
  · have := hsw (·.byUser) (fun x => match x with | .design _ => true | .create _ => true | _ => false) rfl (by through_options)
    rw [this]
    constructor
    · rintro ⟨x, hx, hp⟩
      cases x <;> first | exact ⟨_, .inl hx⟩ | exact ⟨_, .inr hx⟩ | cases hp
    · rintro ⟨s, hx | hx⟩
      · exact ⟨_, hx, rfl⟩
      · exact ⟨_, hx, rfl⟩
  · have := hsw (·.eolOverridden) (fun x => match x with | .eol _ => true | _ => false) rfl (by through_options)
    rw [this]
    constructor
    · rintro ⟨x, hx, hp⟩
      cases x <;> first | exact ⟨_, hx⟩ | cases hp
    · rintro ⟨s, hx⟩
      exact ⟨_, hx, rfl⟩
  · have hk : ∀ a x a', handleOption a x = some a' → a'.help = a.help := by through_options
    exact optionLoop_invariant (fun a => a.help = false) (fun a x a' h e => (hk a x a' h).trans e) opts createNewOpt a h rfl
  · have hk : ∀ a x a', handleOption a x = some a' → a'.version = a.version := by through_options
    exact optionLoop_invariant (fun a => a.version = false) (fun a x a' h e => (hk a x a' h).trans e) opts createNewOpt a h rfl

example : (optionLoop [.design (lit "c"), .mend, .design (lit "html"), .noColor] createNewOpt).map
    (fun r => (r.1.design, r.1.opt.mend, r.1.opt.r, r.1.color, r.1.byUser)) = some (some (lit "html"), 2, true, 0, true) := by decide

/-- C58: line break, indentation mode, tab distance, box width, box height and tag query are those of the last option that says something
about them; without such an option they are line feed, not set, 8, 0, 0, and none. -/
theorem C58_words (opts : List Option') (a : Args) (h : optionLoop opts createNewOpt = some (a, false)) :
    ByLast (fun x => ∃ s, x = .eol s) (fun x v => ∃ s, x = .eol s ∧ LineBreak s v) ['\n'.toNat] opts a.opt.eol ∧
    ByLast (fun x => ∃ s, x = .indent s) (fun x v => ∃ s, x = .indent s ∧ IndentWord s v) '\x00' opts a.opt.indentmode ∧
    ByLast (fun x => ∃ s, x = .tabs s) (fun x (v : Nat) => ∃ s n rest, x = .tabs s ∧ Begins s n rest ∧ Wraps n v) 8 opts a.opt.tabstop ∧
    ByLast (fun x => ∃ s wt ht, x = .size s ∧ SizeParts s (some wt) ht)
      (fun x v => ∃ s wt ht, x = .size s ∧ SizeParts s (some wt) ht ∧ Leading wt v) 0 opts a.opt.reqwidth ∧
    ByLast (fun x => ∃ s wt ht, x = .size s ∧ SizeParts s wt (some ht))
      (fun x v => ∃ s wt ht, x = .size s ∧ SizeParts s wt (some ht) ∧ Leading ht v) 0 opts a.opt.reqheight ∧
    ByLast (fun x => ∃ s, x = .query s) (fun x v => ∃ s q, x = .query s ∧ parseQuery s = some q ∧ v = some q) none opts a.query := by
  refine ⟨?_, ?_, ?_, ?_, ?_, ?_⟩
  · refine setting_byLast (·.opt.eol) _ _ ?_ ?_ opts createNewOpt a h
    · rintro a x a' h ⟨s, rfl⟩
      obtain ⟨e, he, rfl⟩ := (C57_eol _ _ _).1 (show eolOverride a s = some a' from h)
      exact ⟨s, rfl, he⟩
    · other_options
      exact absurd ⟨s, rfl⟩ hx
  · refine setting_byLast (·.opt.indentmode) _ _ ?_ ?_ opts createNewOpt a h
    · rintro a x a' h ⟨s, rfl⟩
      obtain ⟨o, h1, rfl⟩ := Option.map_eq_some_iff.1 (show (indentationMode a.opt s).map (fun o => { a with opt := o }) = some a' from h)
      obtain ⟨c, hc, rfl⟩ := (C57_indent _ _ _).1 h1
      exact ⟨s, rfl, hc⟩
    · other_options
      exact absurd ⟨s, rfl⟩ hx
  · refine setting_byLast (·.opt.tabstop) _ _ ?_ ?_ opts createNewOpt a h
    · rintro a x a' h ⟨s, rfl⟩
      obtain ⟨o, h1, rfl⟩ := Option.map_eq_some_iff.1 (show (tabHandling a.opt s).map (fun o => { a with opt := o }) = some a' from h)
      obtain ⟨v, rest, w, x, hb, _, hw, h1, _, _, rfl⟩ := (C37_tabs _ _ _).1 h1
      refine ⟨s, v, rest, rfl, hb, ?_⟩
      have : ((w.toNat : Nat) : Int) = w := by omega
      simp only [this]
      exact hw
    · other_options
      exact absurd ⟨s, rfl⟩ hx
  · refine setting_byLast (·.opt.reqwidth) _ _ ?_ ?_ opts createNewOpt a h
    · rintro a x a' h ⟨s, wt, ht, rfl, hp⟩
      obtain ⟨o, h1, rfl⟩ := Option.map_eq_some_iff.1 (show (sizeOfBox a.opt s).map (fun o => { a with opt := o }) = some a' from h)
      obtain ⟨wt', ht', w, k, hp', hw, hk, _, _, _, rfl⟩ := (C37_size _ _ _).1 h1
      obtain ⟨rfl, rfl⟩ := sizeParts_unique hp hp'
      exact ⟨s, wt, ht, rfl, hp, hw.1⟩
    · other_options
      obtain ⟨wt', ht', w, k, hp', hw, hk, _, _, _, rfl⟩ := (C37_size _ _ _).1 ho
      cases wt' with
      | none => exact hw
      | some wt => exact absurd ⟨s, wt, ht', rfl, hp'⟩ hx
  · refine setting_byLast (·.opt.reqheight) _ _ ?_ ?_ opts createNewOpt a h
    · rintro a x a' h ⟨s, wt, ht, rfl, hp⟩
      obtain ⟨o, h1, rfl⟩ := Option.map_eq_some_iff.1 (show (sizeOfBox a.opt s).map (fun o => { a with opt := o }) = some a' from h)
      obtain ⟨wt', ht', w, k, hp', hw, hk, _, _, _, rfl⟩ := (C37_size _ _ _).1 h1
      obtain ⟨rfl, rfl⟩ := sizeParts_unique hp hp'
      exact ⟨s, wt, ht, rfl, hp, hk.1⟩
    · other_options
      obtain ⟨wt', ht', w, k, hp', hw, hk, _, _, _, rfl⟩ := (C37_size _ _ _).1 ho
      cases ht' with
      | none => exact hk
      | some ht => exact absurd ⟨s, wt', ht, rfl, hp'⟩ hx
  · refine setting_byLast (·.query) _ _ ?_ ?_ opts createNewOpt a h
    · rintro a x a' h ⟨s, rfl⟩
      obtain ⟨q, h1, rfl⟩ := Option.map_eq_some_iff.1 (show (parseQuery s).map (fun q => { a with query := some q }) = some a' from h)
      exact ⟨s, q, rfl, h1, rfl⟩
    · other_options
      exact absurd ⟨s, rfl⟩ hx

/-- without an option for padding there is none, and likewise for alignment -/
theorem unset_options (opts : List Option') (a : Args) (h : optionLoop opts createNewOpt = some (a, false)) :
    ((∀ s, .padding s ∉ opts) → a.opt.padding = ⟨-1, -1, -1, -1⟩) ∧
    ((∀ s, .align s ∉ opts) → a.opt.halign = '\x00' ∧ a.opt.valign = '\x00' ∧ a.opt.justify = '\x00') := by
  have hp : ByLast (fun x => ∃ s, x = .padding s) (fun _ _ => True) createNewOpt.opt.padding opts a.opt.padding := by
    refine setting_byLast (·.opt.padding) _ _ ?_ ?_ opts createNewOpt a h
    · intros; trivial
    · other_options
      exact absurd ⟨s, rfl⟩ hx
  have ha : ByLast (fun x => ∃ s, x = .align s) (fun _ _ => True) (createNewOpt.opt.halign, createNewOpt.opt.valign, createNewOpt.opt.justify)
      opts (a.opt.halign, a.opt.valign, a.opt.justify) := by
    refine setting_byLast (fun a => (a.opt.halign, a.opt.valign, a.opt.justify)) _ _ ?_ ?_ opts createNewOpt a h
    · intros; trivial
    · other_options
      exact absurd ⟨s, rfl⟩ hx
  constructor
  · intro hn
    rcases hp with ⟨x, ⟨pre, post, e, ⟨s, rfl⟩, -⟩, -⟩ | ⟨-, e⟩
    · exact absurd (by rw [e]; simp) (hn s)
    · exact e
  · intro hn
    rcases ha with ⟨x, ⟨pre, post, e, ⟨s, rfl⟩, -⟩, -⟩ | ⟨-, e⟩
    · exact absurd (by rw [e]; simp) (hn s)
    · simp only [Prod.mk.injEq] at e
      exact e

example : (optionLoop [.size (lit "30"), .eol (lit "cr"), .size (lit "x4"), .tabs (lit "4k")] createNewOpt).map
    (fun r => (r.1.opt.reqwidth, r.1.opt.reqheight, r.1.opt.eol, r.1.opt.tabstop)) = some (30, 4, [13], 4) := by decide

/-- C58: All padding options together are read as one, and so are all alignment options. -/
theorem C58_cumulative (opts : List Option') (a : Args) (h : optionLoop opts createNewOpt = some (a, false)) :
    (∃ l : List Area, allArguments paddingArgument opts = areasText l ∧ (∀ x ∈ l, x.Tolerated) ∧
      a.opt.padding = ⟨latest (Area.on .top) l (-1), latest (Area.on .right) l (-1), latest (Area.on .bottom) l (-1),
        latest (Area.on .left) l (-1)⟩) ∧
    (∃ l : List (Str × Placing), allArguments alignArgument opts = (l.map (fun e => e.1)).flatten ∧ (∀ e ∈ l, Spells e.1 e.2) ∧
      a.opt.halign = latest (fun e : Str × Placing => e.2.halign) l '\x00' ∧
      a.opt.valign = latest (fun e : Str × Placing => e.2.valign) l '\x00' ∧
      a.opt.justify = latest (fun e : Str × Placing => e.2.just) l '\x00') := by
  constructor
  · have key : ∀ (opts : List Option') (a b : Args), optionLoop opts a = some (b, false) →
        ∃ l : List Area, allArguments paddingArgument opts = areasText l ∧ (∀ x ∈ l, x.Tolerated) ∧
          b.opt.padding = areasSet l a.opt.padding := by
      intro opts
      induction opts with
      | nil =>
        intro a b h
        simp only [optionLoop, Option.some.injEq, Prod.mk.injEq, and_true] at h
        subst h
        exact ⟨[], rfl, by simp, rfl⟩
      | cons x rest ih =>
        intro a b h
        obtain ⟨a', h1, h2⟩ := optionLoop_cons h
        obtain ⟨l, e1, e2, e3⟩ := ih a' b h2
        by_cases hx : ∃ s, x = .padding s
        · obtain ⟨s, rfl⟩ := hx
          obtain ⟨o, h3, rfl⟩ := Option.map_eq_some_iff.1 (show (paddingOption a.opt s).map (fun o => { a with opt := o }) = some a' from h1)
          obtain ⟨_, l', f1, f2, f3, rfl⟩ := (paddingOption_iff _ _ _).1 h3
          refine ⟨l' ++ l, ?_, ?_, ?_⟩
          · unfold allArguments at e1 ⊢
            rw [List.filterMap_cons]
            simp only [paddingArgument, List.flatten_cons]
            rw [e1, f1]
            simp [areasText]
          · intro y hy
            rcases List.mem_append.1 hy with hy | hy
            · exact f2 y hy
            · exact e2 y hy
          · rw [e3]
            simp only []
            clear f1 f2 f3 h3 h1 h2 h e3 ih
            generalize a.opt.padding = p
            induction l' generalizing p with
            | nil => rfl
            | cons y ys ih => rw [List.cons_append, areasSet_cons, areasSet_cons, ih]
        · have hk : ∀ a x a', handleOption a x = some a' → ¬ (∃ s, x = .padding s) → a'.opt.padding = a.opt.padding := by
            other_options
            exact absurd ⟨s, rfl⟩ hx
          refine ⟨l, ?_, e2, by rw [e3, hk a x a' h1 hx]⟩
          rw [← e1]
          unfold allArguments
          rw [List.filterMap_cons]
          cases x <;> first | rfl | exact absurd ⟨_, rfl⟩ hx
    exact key opts createNewOpt a h
  · have key : ∀ (opts : List Option') (a b : Args), optionLoop opts a = some (b, false) →
        ∃ l : List (Str × Placing), allArguments alignArgument opts = (l.map (fun e => e.1)).flatten ∧ (∀ e ∈ l, Spells e.1 e.2) ∧
          b.opt.halign = latest (fun e : Str × Placing => e.2.halign) l a.opt.halign ∧
          b.opt.valign = latest (fun e : Str × Placing => e.2.valign) l a.opt.valign ∧
          b.opt.justify = latest (fun e : Str × Placing => e.2.just) l a.opt.justify := by
      intro opts
      induction opts with
      | nil =>
        intro a b h
        simp only [optionLoop, Option.some.injEq, Prod.mk.injEq, and_true] at h
        subst h
        exact ⟨[], rfl, by simp, rfl, rfl, rfl⟩
      | cons x rest ih =>
        intro a b h
        obtain ⟨a', h1, h2⟩ := optionLoop_cons h
        obtain ⟨l, e1, e2, e3, e4, e5⟩ := ih a' b h2
        by_cases hx : ∃ s, x = .align s
        · obtain ⟨s, rfl⟩ := hx
          obtain ⟨o, h3, rfl⟩ := Option.map_eq_some_iff.1 (show (alignment a.opt s).map (fun o => { a with opt := o }) = some a' from h1)
          obtain ⟨_, l', f1, f2, rfl⟩ := (alignment_iff _ _ _).1 h3
          have happ : ∀ (f : Str × Placing → Option Char) (l' : List (Str × Placing)) (v : Char),
              latest f l (latest f l' v) = latest f (l' ++ l) v := by
            intro f l'
            induction l' with
            | nil => intro v; rfl
            | cons y ys ih => intro v; rw [List.cons_append, latest_cons, latest_cons, ih]
          refine ⟨l' ++ l, ?_, ?_, ?_, ?_, ?_⟩
          · unfold allArguments at e1 ⊢
            rw [List.filterMap_cons]
            simp only [alignArgument, List.flatten_cons]
            rw [e1, f1]
            simp
          · intro y hy
            rcases List.mem_append.1 hy with hy | hy
            · exact f2 y hy
            · exact e2 y hy
          · rw [e3]; exact happ _ _ _
          · rw [e4]; exact happ _ _ _
          · rw [e5]; exact happ _ _ _
        · have hk1 : ∀ a x a', handleOption a x = some a' → ¬ (∃ s, x = .align s) → a'.opt.halign = a.opt.halign := by
            other_options
            exact absurd ⟨s, rfl⟩ hx
          have hk2 : ∀ a x a', handleOption a x = some a' → ¬ (∃ s, x = .align s) → a'.opt.valign = a.opt.valign := by
            other_options
            exact absurd ⟨s, rfl⟩ hx
          have hk3 : ∀ a x a', handleOption a x = some a' → ¬ (∃ s, x = .align s) → a'.opt.justify = a.opt.justify := by
            other_options
            exact absurd ⟨s, rfl⟩ hx
          refine ⟨l, ?_, e2, by rw [e3, hk1 a x a' h1 hx], by rw [e4, hk2 a x a' h1 hx], by rw [e5, hk3 a x a' h1 hx]⟩
          rw [← e1]
          unfold allArguments
          rw [List.filterMap_cons]
          cases x <;> first | rfl | exact absurd ⟨_, rfl⟩ hx
    exact key opts createNewOpt a h

example : (optionLoop [.padding (lit "a1"), .align (lit "c"), .padding (lit "t3"), .align (lit "hr")] createNewOpt).map
    (fun r => (r.1.opt.padding, r.1.opt.halign, r.1.opt.valign)) = some (⟨3, 1, 1, 1⟩, 'r', 'c') := by decide

/-! ## C37: ranges -/

/-- C37: Whatever the command line, the settings that it yields are in their ranges; in particular tab distances are never zero. -/
theorem C37_range (opts : List Option') (a : Args) (h : optionLoop opts createNewOpt = some (a, false)) :
    1 ≤ a.opt.tabstop ∧ a.opt.tabstop ≤ 16 ∧ a.opt.tabexp ∈ ['e', 'k', 'u'] ∧ 0 ≤ a.opt.reqwidth ∧ 0 ≤ a.opt.reqheight ∧
    ((∃ s, .size s ∈ opts) → 0 < a.opt.reqwidth ∨ 0 < a.opt.reqheight) ∧
    a.opt.halign ∈ ['\x00', 'l', 'c', 'r'] ∧ a.opt.valign ∈ ['\x00', 't', 'c', 'b'] ∧ a.opt.justify ∈ ['\x00', 'l', 'c', 'r'] ∧
    a.opt.indentmode ∈ ['\x00', 'b', 't', 'n'] ∧ a.opt.eol ∈ [lit "\n", lit "\r", lit "\r\n"] := by
  have hx : ∀ (x : Placing) (t : Str), Spells t x → (∀ y ∈ x.halign, y ∈ ['l', 'c', 'r']) ∧ (∀ y ∈ x.valign, y ∈ ['t', 'c', 'b']) ∧
      (∀ y ∈ x.just, y ∈ ['l', 'c', 'r']) := by
    intro x t hs
    cases hs with
    | horizontal _ hx _ => exact ⟨by intro y hy; cases hy; exact hx, by simp [Placing.valign], by simp [Placing.just]⟩
    | vertical _ hx _ => exact ⟨by simp [Placing.halign], by intro y hy; cases hy; exact hx, by simp [Placing.just]⟩
    | justify _ hx _ => exact ⟨by simp [Placing.halign], by simp [Placing.valign], by intro y hy; cases hy; exact hx⟩
    | shorthand hx _ =>
      exact ⟨by intro y hy; cases hy; exact hx, by intro y hy; cases hy; simp, by intro y hy; cases hy; exact hx⟩
  have hlatest : ∀ (f : Str × Placing → Option Char) (vals : List Char) (l : List (Str × Placing)) (v : Char),
      (∀ e ∈ l, ∀ y ∈ f e, y ∈ vals) → v ∈ '\x00' :: vals → latest f l v ∈ '\x00' :: vals := by
    intro f vals l
    induction l with
    | nil => intro v _ hv; exact hv
    | cons e l ih =>
      intro v hl hv
      rw [latest_cons]
      apply ih _ (fun e' he' => hl e' (by simp [he']))
      cases hf : f e with
      | none => exact hv
      | some y => exact List.mem_cons_of_mem _ (hl e (by simp) y hf)
  obtain ⟨_, l, _, hl, h1, h2, h3⟩ := C58_cumulative opts a h
  obtain ⟨w1, w2, _, _, _, _⟩ := C58_words opts a h
  have htabs : 1 ≤ a.opt.tabstop ∧ a.opt.tabstop ≤ 16 ∧ a.opt.tabexp ∈ ['e', 'k', 'u'] := by
    refine optionLoop_invariant (fun a => 1 ≤ a.opt.tabstop ∧ a.opt.tabstop ≤ 16 ∧ a.opt.tabexp ∈ ['e', 'k', 'u']) ?_ opts createNewOpt a h
      (by decide)
    intro a x a' h hp
    by_cases hx : ∃ s, x = .tabs s
    · obtain ⟨s, rfl⟩ := hx
      obtain ⟨o, h1, rfl⟩ := Option.map_eq_some_iff.1 (show (tabHandling a.opt s).map (fun o => { a with opt := o }) = some a' from h)
      obtain ⟨v, rest, w, x, hb, _, hw, h1, h2, hm, rfl⟩ := (C37_tabs _ _ _).1 h1
      refine ⟨by simp only []; omega, by simp only []; omega, ?_⟩
      cases hm with
      | none => exact hp.2.2
      | letter _ hx _ => exact hx
    · have hk1 : ∀ a x a', handleOption a x = some a' → ¬ (∃ s, x = .tabs s) → a'.opt.tabstop = a.opt.tabstop := by
        other_options
        exact absurd ⟨s, rfl⟩ hx
      have hk2 : ∀ a x a', handleOption a x = some a' → ¬ (∃ s, x = .tabs s) → a'.opt.tabexp = a.opt.tabexp := by
        other_options
        exact absurd ⟨s, rfl⟩ hx
      rw [hk1 a x a' h hx, hk2 a x a' h hx]
      exact hp
  have hsize : 0 ≤ a.opt.reqwidth ∧ 0 ≤ a.opt.reqheight := by
    refine optionLoop_invariant (fun a => 0 ≤ a.opt.reqwidth ∧ 0 ≤ a.opt.reqheight) ?_ opts createNewOpt a h (by decide)
    intro a x a' h hp
    by_cases hx : ∃ s, x = .size s
    · obtain ⟨s, rfl⟩ := hx
      obtain ⟨o, h1, rfl⟩ := Option.map_eq_some_iff.1 (show (sizeOfBox a.opt s).map (fun o => { a with opt := o }) = some a' from h)
      obtain ⟨wt', ht', w, k, hp', hw, hk, h2, h3, _, rfl⟩ := (C37_size _ _ _).1 h1
      exact ⟨h2, h3⟩
    · have hk1 : ∀ a x a', handleOption a x = some a' → ¬ (∃ s, x = .size s) → a'.opt.reqwidth = a.opt.reqwidth := by
        other_options
        exact absurd ⟨s, rfl⟩ hx
      have hk2 : ∀ a x a', handleOption a x = some a' → ¬ (∃ s, x = .size s) → a'.opt.reqheight = a.opt.reqheight := by
        other_options
        exact absurd ⟨s, rfl⟩ hx
      rw [hk1 a x a' h hx, hk2 a x a' h hx]
      exact hp
  have hpos : (∃ s, .size s ∈ opts) → 0 < a.opt.reqwidth ∨ 0 < a.opt.reqheight := by
    have hs := setting_byLast (fun a => (a.opt.reqwidth, a.opt.reqheight)) (fun x => ∃ s, x = .size s)
      (fun _ v => 0 < v.1 ∨ 0 < v.2) (by
        rintro a x a' h ⟨s, rfl⟩
        obtain ⟨o, h1, rfl⟩ := Option.map_eq_some_iff.1 (show (sizeOfBox a.opt s).map (fun o => { a with opt := o }) = some a' from h)
        obtain ⟨wt', ht', w, k, hp', hw, hk, h2, h3, h4, rfl⟩ := (C37_size _ _ _).1 h1
        simp only []
        omega) (by
        other_options
        exact absurd ⟨s, rfl⟩ hx) opts createNewOpt a h
    rintro ⟨s, hs'⟩
    rcases hs with ⟨x, _, hr⟩ | ⟨hn, _⟩
    · exact hr
    · exact absurd ⟨s, rfl⟩ (hn _ hs')
  refine ⟨htabs.1, htabs.2.1, htabs.2.2, hsize.1, hsize.2, hpos, ?_, ?_, ?_, ?_, ?_⟩
  · rw [h1]; exact hlatest _ _ l _ (fun e he => (hx e.2 e.1 (hl e he)).1) (by simp)
  · rw [h2]; exact hlatest _ _ l _ (fun e he => (hx e.2 e.1 (hl e he)).2.1) (by simp)
  · rw [h3]; exact hlatest _ _ l _ (fun e he => (hx e.2 e.1 (hl e he)).2.2) (by simp)
  · rcases w2 with ⟨x, _, s, _, hw⟩ | ⟨_, e⟩
    · generalize a.opt.indentmode = m at hw ⊢
      cases hw <;> decide
    · rw [e]; decide
  · rcases w1 with ⟨x, _, s, _, hw⟩ | ⟨_, e⟩
    · generalize a.opt.eol = m at hw ⊢
      cases hw <;> decide
    · rw [e]; decide

/-! ## C58: help -/

/-- C58: As soon as help or the version is asked for after acceptable options, nothing else on the command line matters. -/
theorem C58_help (canRead canWrite : Str → Bool) (first : Option Str) (hf : first ≠ some (lit "-?")) (pre : List Option') (a : Args)
    (hpre : optionLoop pre createNewOpt = some (a, false)) (rest : List Option') (files : List Str) :
    processCommandline canRead canWrite first (pre ++ .help :: rest) files = some { a with help := true } ∧
    processCommandline canRead canWrite first (pre ++ .version :: rest) files = some { a with version := true } := by
  have key : ∀ (pre : List Option') (a0 a : Args), optionLoop pre a0 = some (a, false) → ∀ post, optionLoop (pre ++ post) a0 = optionLoop post a := by
    intro pre
    induction pre with
    | nil =>
      intro a0 a h post
      simp only [optionLoop, Option.some.injEq, Prod.mk.injEq, and_true] at h
      subst h; rfl
    | cons x xs ih =>
      intro a0 a h post
      obtain ⟨a', h1, h2⟩ := optionLoop_cons h
      rw [List.cons_append, optionLoop_cons_eq _ h1]
      exact ih a' a h2 post
  unfold processCommandline
  rw [if_neg hf, if_neg hf, key pre _ a hpre, key pre _ a hpre]
  exact ⟨rfl, rfl⟩

/-- C58: `-?` as the first argument asks for help. -/
theorem C58_questionmark (canRead canWrite : Str → Bool) (opts : List Option') (files : List Str) :
    (processCommandline canRead canWrite (some (lit "-?")) opts files).map (·.help) = some true := rfl

/-- C58: An option that does not exist, or lacks its argument, is an error, unless help or the version was asked for before. -/
theorem C58_bad (canRead canWrite : Str → Bool) (first : Option Str) (hf : first ≠ some (lit "-?")) (pre post : List Option')
    (hpre : .help ∉ pre ∧ .version ∉ pre) (files : List Str) :
    processCommandline canRead canWrite first (pre ++ .bad :: post) files = none := by
  have key : ∀ (pre : List Option') (a0 : Args), (.help ∉ pre ∧ .version ∉ pre) → optionLoop (pre ++ .bad :: post) a0 = none := by
    intro pre
    induction pre with
    | nil => intro a0 _; rfl
    | cons x xs ih =>
      intro a0 hp
      simp only [List.mem_cons, not_or] at hp
      by_cases hb : x = .bad
      · subst hb; rfl
      · cases hh : handleOption a0 x with
        | none =>
          rw [List.cons_append, optionLoop_bind _ a0 (fun e => hp.1.1 e.symm) (fun e => hp.2.1 e.symm) hb, hh]
          rfl
        | some a' =>
          rw [List.cons_append, optionLoop_cons_eq _ hh]
          exact ih a' ⟨hp.1.2, hp.2.2⟩
  unfold processCommandline
  rw [if_neg hf, key pre _ hpre]
  rfl

/-! ## C59 -/

/-- C59: At most two files may follow the options.  The first one is read, the second one is written, `-` or a missing one stands for
standard input and output; otherwise the file must be possible to open.  Nothing else depends on the files. -/
theorem C59_files (canRead canWrite : Str → Bool) (first : Option Str) (hf : first ≠ some (lit "-?")) (opts : List Option') (a : Args)
    (h : optionLoop opts createNewOpt = some (a, false)) (files : List Str) (a' : Args) :
    processCommandline canRead canWrite first opts files = some a' ↔
      files.length ≤ 2 ∧ (∀ f, files[0]? = some f → f = lit "-" ∨ canRead f = true) ∧
      (∀ f, files[1]? = some f → f = lit "-" ∨ canWrite f = true) ∧
      a' = { a with infile := (files[0]?).filter (fun f => decide (f ≠ lit "-")), outfile := (files[1]?).filter (fun f => decide (f ≠ lit "-")) } := by
  have hio : a.infile = none ∧ a.outfile = none := by
    have hk1 : ∀ a x a', handleOption a x = some a' → a'.infile = a.infile := by through_options
    have hk2 : ∀ a x a', handleOption a x = some a' → a'.outfile = a.outfile := by through_options
    exact ⟨optionLoop_invariant (fun a => a.infile = none) (fun a x a' h e => (hk1 a x a' h).trans e) opts createNewOpt a h rfl,
      optionLoop_invariant (fun a => a.outfile = none) (fun a x a' h e => (hk2 a x a' h).trans e) opts createNewOpt a h rfl⟩
  have hdef : processCommandline canRead canWrite first opts files = inputOutputFiles canRead canWrite a files := by
    unfold processCommandline
    rw [if_neg hf, h]
    rfl
  rw [hdef]
  match files with
  | [] =>
    obtain ⟨b, c, d, e, f, g, k, l, m, n, o, p, q, r, s, i1, i2⟩ := a
    simp only at hio
    obtain ⟨rfl, rfl⟩ := hio
    simp [inputOutputFiles]
    exact eq_comm
  | [x] =>
    by_cases hx : x = lit "-"
    · simp [inputOutputFiles, hx, Option.filter]
      exact eq_comm
    · by_cases hr : canRead x = true
      · simp [inputOutputFiles, hx, hr, Option.filter]
        exact eq_comm
      · simp [inputOutputFiles, hx, hr, Option.filter]
  | [x, y] =>
    by_cases hx : x = lit "-"
    · by_cases hy : y = lit "-"
      · simp [inputOutputFiles, hx, hy, Option.filter]
        exact eq_comm
      · by_cases hw : canWrite y = true
        · simp [inputOutputFiles, hx, hy, hw, Option.filter]
          exact eq_comm
        · simp [inputOutputFiles, hx, hy, hw, Option.filter]
    · by_cases hr : canRead x = true
      · by_cases hy : y = lit "-"
        · simp [inputOutputFiles, hx, hr, hy, Option.filter]
          exact eq_comm
        · by_cases hw : canWrite y = true
          · simp [inputOutputFiles, hx, hr, hy, hw, Option.filter]
            exact eq_comm
          · simp [inputOutputFiles, hx, hr, hy, hw, Option.filter]
      · simp [inputOutputFiles, hx, hr, Option.filter]
  | _ :: _ :: _ :: _ => simp [inputOutputFiles]

example : (processCommandline (fun f => f == lit "in.txt") (fun _ => true) (some (lit "-r")) [.remove] [lit "in.txt", lit "-"]).map
    (fun a => (a.infile, a.outfile, a.opt.r)) = some (some (lit "in.txt"), none, true) := by decide

end Boxes
