import Verif.Spec.Order
import Verif.Lemmas.Names

set_option linter.unusedSimpArgs false

namespace Boxes
open Boxes.Spec

/-- the parts of the settings -/
inductive Region where
  | align | cld | color | design | byUser | eol | config | indent | kill | list | encoding | padding | query | remove | size | tabs | extra | other
deriving DecidableEq

/-- the parts that an option sets -/
def touches : Option' → Region → Bool
  | .align _, r => r = .align
  | .create _, r => r = .cld || r = .byUser
  | .color, r => r = .color
  | .noColor, r => r = .color
  | .design _, r => r = .design || r = .byUser
  | .eol _, r => r = .eol
  | .config _, r => r = .config
  | .indent _, r => r = .indent
  | .kill _, r => r = .kill
  | .killBlank, r => r = .kill
  | .noKillBlank, r => r = .kill
  | .list, r => r = .list
  | .mend, r => r = .kill || r = .remove
  | .encoding _, r => r = .encoding
  | .padding _, r => r = .padding
  | .query _, r => r = .query
  | .remove, r => r = .remove
  | .size _, r => r = .size
  | .tabs _, r => r = .tabs
  | .extra _, r => r = .extra
  | .help, _ => false
  | .version, _ => false
  | .bad, _ => false

/-- the settings `a`, with some parts from `b` -/
def mixOpt (p : Region → Bool) (a b : Opt) : Opt where
  valign := if p .align then b.valign else a.valign
  halign := if p .align then b.halign else a.halign
  justify := if p .align then b.justify else a.justify
  eol := if p .eol then b.eol else a.eol
  indentmode := if p .indent then b.indentmode else a.indentmode
  killblank := if p .kill then b.killblank else a.killblank
  mend := if p .kill then b.mend else a.mend
  padding := if p .padding then b.padding else a.padding
  r := if p .remove then b.r else a.r
  reqwidth := if p .size then b.reqwidth else a.reqwidth
  reqheight := if p .size then b.reqheight else a.reqheight
  tabstop := if p .tabs then b.tabstop else a.tabstop
  tabexp := if p .tabs then b.tabexp else a.tabexp

def mixArgs (p : Region → Bool) (a b : Args) : Args where
  opt := mixOpt p a.opt b.opt
  cld := if p .cld then b.cld else a.cld
  color := if p .color then b.color else a.color
  design := if p .design then b.design else a.design
  byUser := if p .byUser then b.byUser else a.byUser
  eolOverridden := if p .eol then b.eolOverridden else a.eolOverridden
  f := if p .config then b.f else a.f
  help := if p .other then b.help else a.help
  l := if p .list then b.l else a.l
  encoding := if p .encoding then b.encoding else a.encoding
  query := if p .query then b.query else a.query
  version := if p .other then b.version else a.version
  qundoc := if p .extra then b.qundoc else a.qundoc
  debug := if p .extra then b.debug else a.debug
  areasActive := if p .extra then b.areasActive else a.areasActive
  infile := if p .other then b.infile else a.infile
  outfile := if p .other then b.outfile else a.outfile

theorem alignLoop_mix {p : Region → Bool} (hp : p .align = false) (b : Opt) : ∀ (fuel : Nat) (o : Opt) (s : Str),
    alignLoop fuel (mixOpt p o b) s = (alignLoop fuel o s).map (mixOpt p · b)
  | fuel, o, [] => by cases fuel <;> simp [alignLoop]
  | 0, o, c :: rest => by simp [alignLoop]
  | fuel + 1, o, c :: rest => by
    have ih := alignLoop_mix hp b fuel
    have e1 : ∀ x, { mixOpt p o b with halign := x } = mixOpt p { o with halign := x } b := by intro x; simp [mixOpt, hp]
    have e2 : ∀ x, { mixOpt p o b with valign := x } = mixOpt p { o with valign := x } b := by intro x; simp [mixOpt, hp]
    have e3 : ∀ x, { mixOpt p o b with justify := x } = mixOpt p { o with justify := x } b := by intro x; simp [mixOpt, hp]
    have e4 : ∀ x y z, { mixOpt p o b with justify := x, halign := y, valign := z } = mixOpt p { o with justify := x, halign := y, valign := z } b := by
      intro x y z; simp [mixOpt, hp]
    rw [alignLoop, alignLoop]
    split
    · rfl
    · split
      · cases hLetter (rest.headD 0) with
        | none => rfl
        | some x => exact (congrArg (fun o => alignLoop fuel o (rest.drop 1)) (e1 x)).trans (ih _ _)
      · split
        · cases vLetter (rest.headD 0) with
          | none => rfl
          | some x => exact (congrArg (fun o => alignLoop fuel o (rest.drop 1)) (e2 x)).trans (ih _ _)
        · split
          · cases hLetter (rest.headD 0) with
            | none => rfl
            | some x => exact (congrArg (fun o => alignLoop fuel o (rest.drop 1)) (e3 x)).trans (ih _ _)
          · split
            · exact (congrArg (fun o => alignLoop fuel o rest) (e4 _ _ _)).trans (ih _ _)
            · split
              · exact (congrArg (fun o => alignLoop fuel o rest) (e4 _ _ _)).trans (ih _ _)
              · split
                · exact (congrArg (fun o => alignLoop fuel o rest) (e4 _ _ _)).trans (ih _ _)
                · rfl

/-- an option does not look at the parts that it does not set, and keeps them -/
theorem handleOption_mix (x : Option') {p : Region → Bool} (hp : ∀ r, p r = true → touches x r = false) (a b : Args) :
    handleOption (mixArgs p a b) x = (handleOption a x).map (mixArgs p · b) := by
  have hpf : ∀ r, touches x r = true → p r = false := by
    intro r hr
    cases h : p r with
    | false => rfl
    | true => rw [hp r h] at hr; simp at hr
  cases x with
  | align s =>
    have h0 := hpf .align (by simp [touches])
    simp only [handleOption, alignment]
    split
    · rfl
    · rw [show (mixArgs p a b).opt = mixOpt p a.opt b.opt from rfl, alignLoop_mix h0]
      cases alignLoop s.length a.opt s <;> simp [mixArgs]
  | create s =>
    have h0 := hpf .cld (by simp [touches])
    have h1 := hpf .byUser (by simp [touches])
    simp only [handleOption, commandLineDesign]
    split <;> simp [mixArgs, h0, h1]
  | color => have h0 := hpf .color (by simp [touches]); simp [handleOption, mixArgs, h0]
  | noColor => have h0 := hpf .color (by simp [touches]); simp [handleOption, mixArgs, h0]
  | design s =>
    have h0 := hpf .design (by simp [touches])
    have h1 := hpf .byUser (by simp [touches])
    simp [handleOption, designChoice, mixArgs, h0, h1]
  | eol s =>
    have h0 := hpf .eol (by simp [touches])
    simp only [handleOption, eolOverride]
    split
    · simp [mixArgs, mixOpt, h0]
    · split
      · simp [mixArgs, mixOpt, h0]
      · split <;> simp [mixArgs, mixOpt, h0]
  | config s => have h0 := hpf .config (by simp [touches]); simp [handleOption, mixArgs, h0]
  | indent s =>
    have h0 := hpf .indent (by simp [touches])
    simp only [handleOption, indentationMode]
    split
    · simp [mixArgs, mixOpt, h0]
    · split
      · simp [mixArgs, mixOpt, h0]
      · split <;> simp [mixArgs, mixOpt, h0]
  | kill s =>
    have h0 := hpf .kill (by simp [touches])
    have e : (mixArgs p a b).opt.killblank = a.opt.killblank := by simp [mixArgs, mixOpt, h0]
    simp only [handleOption, killblankOption, e]
    split
    · split
      · simp [mixArgs, mixOpt, h0]
      · split <;> simp [mixArgs, mixOpt, h0]
    · simp [mixArgs]
  | killBlank =>
    have h0 := hpf .kill (by simp [touches])
    have e : (mixArgs p a b).opt.killblank = a.opt.killblank := by simp [mixArgs, mixOpt, h0]
    simp only [handleOption, e]
    split <;> simp [mixArgs, mixOpt, h0]
  | noKillBlank =>
    have h0 := hpf .kill (by simp [touches])
    have e : (mixArgs p a b).opt.killblank = a.opt.killblank := by simp [mixArgs, mixOpt, h0]
    simp only [handleOption, e]
    split <;> simp [mixArgs, mixOpt, h0]
  | list => have h0 := hpf .list (by simp [touches]); simp [handleOption, mixArgs, h0]
  | mend =>
    have h0 := hpf .kill (by simp [touches])
    have h1 := hpf .remove (by simp [touches])
    simp [handleOption, mixArgs, mixOpt, h0, h1]
  | encoding s => have h0 := hpf .encoding (by simp [touches]); simp [handleOption, mixArgs, h0]
  | padding s =>
    have h0 := hpf .padding (by simp [touches])
    have e : (mixArgs p a b).opt.padding = a.opt.padding := by simp [mixArgs, mixOpt, h0]
    simp only [handleOption, paddingOption, e]
    split
    · rfl
    · cases areaLoop s.length a.opt.padding s <;> simp [mixArgs, mixOpt, h0]
  | query s =>
    have h0 := hpf .query (by simp [touches])
    simp only [handleOption]
    cases parseQuery s <;> simp [mixArgs, h0]
  | remove => have h0 := hpf .remove (by simp [touches]); simp [handleOption, mixArgs, mixOpt, h0]
  | size s =>
    have h0 := hpf .size (by simp [touches])
    have e : (mixArgs p a b).opt.reqwidth = a.opt.reqwidth := by simp [mixArgs, mixOpt, h0]
    have e' : (mixArgs p a b).opt.reqheight = a.opt.reqheight := by simp [mixArgs, mixOpt, h0]
    simp only [handleOption, sizeOfBox, e, e']
    cases splitAtX s with
    | none =>
      simp only
      split
      · rfl
      · simp [mixArgs, mixOpt, h0]
    | some x =>
      simp only
      generalize (if x.fst.isEmpty = true then none else some (strtol x.fst)) = w
      split
      · rfl
      · simp [mixArgs, mixOpt, h0]
  | tabs s =>
    have h0 := hpf .tabs (by simp [touches])
    simp only [handleOption, tabHandling]
    split
    · rfl
    · split
      · simp [mixArgs, mixOpt, h0]
      · split
        · simp [mixArgs, mixOpt, h0]
        · split
          · simp [mixArgs, mixOpt, h0]
          · split <;> simp [mixArgs, mixOpt, h0]
      · rfl
  | extra s =>
    have h0 := hpf .extra (by simp [touches])
    have e1 : (mixArgs p a b).debug = a.debug := by simp [mixArgs, h0]
    have e2 : (mixArgs p a b).qundoc = a.qundoc := by simp [mixArgs, h0]
    have e3 : (mixArgs p a b).areasActive = a.areasActive := by simp [mixArgs, h0]
    have hx : ∀ (a : Args) (s : Str), extraDebug (mixArgs p a b) s = (extraDebug a s).map (mixArgs p · b) := by
      intro a s
      have e1 : (mixArgs p a b).debug = a.debug := by simp [mixArgs, h0]
      simp only [extraDebug, e1]
      split
      · split
        · cases debugAreas a.debug none <;> simp [mixArgs, h0]
        · split
          · rename_i rest _ _
            cases debugAreas a.debug (some rest) <;> simp [mixArgs, h0]
          · rfl
      · rfl
    have hq : { mixArgs p a b with qundoc := true } = mixArgs p { a with qundoc := true } b := by simp [mixArgs, h0]
    have hb : ∀ r : Option Args, ((r.map (mixArgs p · b)).bind fun a => if !a.qundoc && !a.areasActive.any id then none else some a) =
        (r.bind fun a => if !a.qundoc && !a.areasActive.any id then none else some a).map (mixArgs p · b) := by
      intro r
      cases r with
      | none => rfl
      | some a =>
        have e2 : (mixArgs p a b).qundoc = a.qundoc := by simp [mixArgs, h0]
        have e3 : (mixArgs p a b).areasActive = a.areasActive := by simp [mixArgs, h0]
        simp only [Option.map_some, Option.bind_some, e2, e3]
        split <;> rfl
    simp only [handleOption, undocumentedOptions]
    split
    · rw [hq, hx, hb]
    · rw [hx, hb]
  | help => rfl
  | version => rfl
  | bad => rfl

/-- an option changes only the parts that it sets -/
theorem handleOption_own {x : Option'} {a a' : Args} (h : handleOption a x = some a') : a' = mixArgs (touches x) a a' := by
  have h2 := handleOption_mix x (p := fun r => !touches x r) (by simp) a a
  have e : mixArgs (fun r => !touches x r) a a = a := by simp [mixArgs, mixOpt]
  rw [e, h, Option.map_some, Option.some.injEq] at h2
  have e3 : mixArgs (fun r => !touches x r) a' a = mixArgs (touches x) a a' := by
    have key : ∀ {α : Type} (r : Region) (u v : α), (if (!touches x r) = true then u else v) = if touches x r = true then v else u := by
      intro α r u v; cases touches x r <;> rfl
    simp only [mixArgs, mixOpt, key]
  rw [← e3]; exact h2

theorem mix_swap {p q : Region → Bool} (h : ∀ r, p r = true → q r = false) {a a' b : Args} (ha : a' = mixArgs p a a') (hb : b = mixArgs q a b) :
    mixArgs p b a' = mixArgs q a' b := by
  have key : ∀ {α : Type} (r : Region) (x y z : α), y = (if p r = true then y else x) → z = (if q r = true then z else x) →
      (if p r = true then y else z) = if q r = true then z else y := by
    intro α r x y z hy hz
    cases hp : p r with
    | true => simp [h r hp]
    | false =>
      simp only [hp, Bool.false_eq_true, if_false] at hy ⊢
      cases hq : q r with
      | true => simp
      | false => simp only [hq, Bool.false_eq_true, if_false] at hz ⊢; rw [hy, hz]
  have fld : ∀ {α : Type} (r : Region) (f : Args → α), (f (mixArgs p a a') = if p r = true then f a' else f a) → (f (mixArgs q a b) = if q r = true then f b else f a) →
      (if p r = true then f a' else f b) = if q r = true then f b else f a' := by
    intro α r f h1 h2
    exact key r (f a) (f a') (f b) ((congrArg f ha).trans h1) ((congrArg f hb).trans h2)
  simp only [mixArgs, mixOpt, Args.mk.injEq, Opt.mk.injEq]
  refine ⟨⟨?_, ?_, ?_, ?_, ?_, ?_, ?_, ?_, ?_, ?_, ?_, ?_, ?_⟩, ?_, ?_, ?_, ?_, ?_, ?_, ?_, ?_, ?_, ?_, ?_, ?_, ?_, ?_, ?_, ?_⟩
  · exact fld .align (·.opt.valign) rfl rfl
  · exact fld .align (·.opt.halign) rfl rfl
  · exact fld .align (·.opt.justify) rfl rfl
  · exact fld .eol (·.opt.eol) rfl rfl
  · exact fld .indent (·.opt.indentmode) rfl rfl
  · exact fld .kill (·.opt.killblank) rfl rfl
  · exact fld .kill (·.opt.mend) rfl rfl
  · exact fld .padding (·.opt.padding) rfl rfl
  · exact fld .remove (·.opt.r) rfl rfl
  · exact fld .size (·.opt.reqwidth) rfl rfl
  · exact fld .size (·.opt.reqheight) rfl rfl
  · exact fld .tabs (·.opt.tabstop) rfl rfl
  · exact fld .tabs (·.opt.tabexp) rfl rfl
  · exact fld .cld (·.cld) rfl rfl
  · exact fld .color (·.color) rfl rfl
  · exact fld .design (·.design) rfl rfl
  · exact fld .byUser (·.byUser) rfl rfl
  · exact fld .eol (·.eolOverridden) rfl rfl
  · exact fld .config (·.f) rfl rfl
  · exact fld .other (·.help) rfl rfl
  · exact fld .list (·.l) rfl rfl
  · exact fld .encoding (·.encoding) rfl rfl
  · exact fld .query (·.query) rfl rfl
  · exact fld .other (·.version) rfl rfl
  · exact fld .extra (·.qundoc) rfl rfl
  · exact fld .extra (·.debug) rfl rfl
  · exact fld .extra (·.areasActive) rfl rfl
  · exact fld .other (·.infile) rfl rfl
  · exact fld .other (·.outfile) rfl rfl

theorem handle_swap_apart {x y : Option'} (h : ∀ r, touches x r = true → touches y r = false) (a : Args) :
    (handleOption a x).bind (handleOption · y) = (handleOption a y).bind (handleOption · x) := by
  have h' : ∀ r, touches y r = true → touches x r = false := by
    intro r hr
    cases hx : touches x r with
    | false => rfl
    | true => rw [h r hx] at hr; simp at hr
  cases hx : handleOption a x with
  | none =>
    cases hy : handleOption a y with
    | none => rfl
    | some b =>
      have hb := handleOption_own hy
      rw [Option.bind_none, Option.bind_some, hb, handleOption_mix x h', hx]
      rfl
  | some a' =>
    have ha := handleOption_own hx
    have e1 : handleOption a' y = (handleOption a y).map (mixArgs (touches x) · a') := by
      conv => lhs; rw [ha]
      exact handleOption_mix y h a a'
    rw [Option.bind_some, e1]
    cases hy : handleOption a y with
    | none => rfl
    | some b =>
      have hb := handleOption_own hy
      have e2 : handleOption b x = (handleOption a x).map (mixArgs (touches y) · b) := by
        conv => lhs; rw [hb]
        exact handleOption_mix x h' a b
      rw [Option.map_some, Option.bind_some, e2, hx, Option.map_some]
      exact congrArg some (mix_swap h ha hb)

/-- the topic of the options that set a part -/
def regionTopic : Region → OptionTopic
  | .align => .align | .cld => .create | .color => .color | .design => .design | .byUser => .stop | .eol => .eol | .config => .config | .indent => .indent
  | .kill => .blankLines | .list => .list | .encoding => .encoding | .padding => .padding | .query => .query | .remove => .stop | .size => .size | .tabs => .tabs
  | .extra => .extra | .other => .stop

theorem touches_topic {x : Option'} {r : Region} (h : touches x r = true) : optionTopic x = regionTopic r ∨
    (r = .byUser ∧ ∃ s, x = .create s ∨ x = .design s) ∨ (r = .remove ∧ (x = .mend ∨ x = .remove)) := by
  cases x <;> simp only [touches, Bool.or_eq_true, decide_eq_true_eq, Bool.false_eq_true] at h
  case create s => rcases h with rfl | rfl <;> simp [optionTopic, regionTopic]
  case design s => rcases h with rfl | rfl <;> simp [optionTopic, regionTopic]
  case mend => rcases h with rfl | rfl <;> simp [optionTopic, regionTopic]
  case remove => subst h; simp
  all_goals subst h; exact .inl rfl

theorem no_region_topic {x : Option'} {r : Region} (h : touches x r = true) (hr : regionTopic r = .stop) : optionTopic x ≠ regionTopic r := by
  rw [hr]
  cases x <;> first
    | (simp [optionTopic]; done)
    | (simp [touches] at h; done)

/-- options about different things can change places -/
theorem handle_swap {x y : Option'} (h : optionTopic x ≠ optionTopic y) (a : Args) :
    (handleOption a x).bind (handleOption · y) = (handleOption a y).bind (handleOption · x) := by
  by_cases hxy : ∀ r, touches x r = true → touches y r = false
  · exact handle_swap_apart hxy a
  · simp only [Classical.not_forall] at hxy
    obtain ⟨r, h1, h2⟩ := hxy
    have h2 : touches y r = true := by simpa using h2
    rcases touches_topic h1 with e1 | ⟨rfl, s, e1⟩ | ⟨rfl, e1⟩
    · rcases touches_topic h2 with e2 | ⟨rfl, -⟩ | ⟨rfl, -⟩
      · exact absurd (e1.trans e2.symm) h
      · exact absurd e1 (no_region_topic h1 rfl)
      · exact absurd e1 (no_region_topic h1 rfl)
    · rcases touches_topic h2 with e2 | ⟨-, t, e2⟩ | ⟨e2, -⟩
      · exact absurd e2 (no_region_topic h2 rfl)
      · rcases e1 with rfl | rfl <;> rcases e2 with rfl | rfl
        · exact absurd rfl h
        · simp only [handleOption, commandLineDesign, designChoice]; split <;> rfl
        · simp only [handleOption, commandLineDesign, designChoice]; split <;> rfl
        · exact absurd rfl h
      · simp at e2
    · rcases touches_topic h2 with e2 | ⟨e2, -⟩ | ⟨-, e2⟩
      · exact absurd e2 (no_region_topic h2 rfl)
      · simp at e2
      · rcases e1 with rfl | rfl <;> rcases e2 with rfl | rfl
        · exact absurd rfl h
        · rfl
        · rfl
        · exact absurd rfl h

theorem optionLoop_step {x : Option'} (h1 : x ≠ .help) (h2 : x ≠ .version) (rest : List Option') (a : Args) :
    optionLoop (x :: rest) a = (handleOption a x).bind (optionLoop rest) := by
  by_cases h3 : x = .bad
  · subst h3; rfl
  · exact optionLoop_bind rest a h1 h2 h3

/-- an option can be moved to the front over options about other things -/
theorem optionLoop_front {x : Option'} (h1 : x ≠ .help) (h2 : x ≠ .version) (rest : List Option') : ∀ (pre : List Option'), (∀ y ∈ pre, optionTopic y ≠ optionTopic x) →
    .help ∉ pre → .version ∉ pre → ∀ a, optionLoop (pre ++ x :: rest) a = optionLoop (x :: (pre ++ rest)) a
  | [], _, _, _, a => rfl
  | y :: pre, h, hh, hv, a => by
    have hy1 : y ≠ .help := by rintro rfl; simp at hh
    have hy2 : y ≠ .version := by rintro rfl; simp at hv
    have ih := optionLoop_front h1 h2 rest pre (fun z hz => h z (by simp [hz])) (fun h => hh (by simp [h])) (fun h => hv (by simp [h]))
    rw [List.cons_append, optionLoop_step hy1 hy2, optionLoop_step h1 h2]
    have e1 : (fun a => optionLoop (pre ++ x :: rest) a) = fun a => (handleOption a x).bind (optionLoop (pre ++ rest)) := by
      funext a; rw [ih a, optionLoop_step h1 h2]
    have e2 : (fun a => optionLoop ((y :: pre) ++ rest) a) = fun a => (handleOption a y).bind (optionLoop (pre ++ rest)) := by
      funext a; rw [List.cons_append, optionLoop_step hy1 hy2]
    show (handleOption a y).bind (fun a => optionLoop (pre ++ x :: rest) a) = (handleOption a x).bind (fun a => optionLoop ((y :: pre) ++ rest) a)
    rw [e1, e2, ← Option.bind_assoc, ← Option.bind_assoc]
    rw [show (fun a => handleOption a x) = (handleOption · x) from rfl, handle_swap (h y (by simp)) a]

theorem sameByTopic_mem {opts opts' : List Option'} (h : SameByTopic opts opts') (x : Option') : x ∈ opts ↔ x ∈ opts' := by
  have := congrArg (x ∈ ·) (h (optionTopic x))
  simpa using this

/-- the first option of a topic -/
theorem first_of_topic {x : Option'} {more : List Option'} : ∀ (opts : List Option'), opts.filter (fun y => optionTopic y = optionTopic x) = x :: more →
    ∃ pre post, opts = pre ++ x :: post ∧ (∀ y ∈ pre, optionTopic y ≠ optionTopic x) ∧ post.filter (fun y => optionTopic y = optionTopic x) = more
  | [], h => by simp at h
  | y :: rest, h => by
    by_cases hy : optionTopic y = optionTopic x
    · rw [List.filter_cons_of_pos (by simpa using hy)] at h
      obtain ⟨rfl, h⟩ := List.cons.inj h
      exact ⟨[], rest, rfl, by simp, h⟩
    · rw [List.filter_cons_of_neg (by simpa using hy)] at h
      obtain ⟨pre, post, rfl, h1, h2⟩ := first_of_topic rest h
      exact ⟨y :: pre, post, rfl, by
        intro z hz
        rcases List.mem_cons.1 hz with rfl | hz
        · exact hy
        · exact h1 z hz, h2⟩

theorem optionLoop_order : ∀ (opts opts' : List Option'), SameByTopic opts opts' → .help ∉ opts → .version ∉ opts → ∀ a, optionLoop opts' a = optionLoop opts a
  | [], opts', h, _, _, a => by
    have : opts' = [] := by
      cases opts' with
      | nil => rfl
      | cons x _ => exact absurd ((sameByTopic_mem h x).2 (by simp)) (by simp)
    rw [this]
  | x :: opts, opts', h, hh, hv, a => by
    have hx1 : x ≠ .help := by rintro rfl; simp at hh
    have hx2 : x ≠ .version := by rintro rfl; simp at hv
    have hk := h (optionTopic x)
    rw [List.filter_cons_of_pos (by simp)] at hk
    obtain ⟨pre, post, rfl, h1, h2⟩ := first_of_topic opts' hk.symm
    have hh' : .help ∉ pre := fun hm => hh ((sameByTopic_mem h _).2 (by simp [hm]))
    have hv' : .version ∉ pre := fun hm => hv ((sameByTopic_mem h _).2 (by simp [hm]))
    have hs : SameByTopic opts (pre ++ post) := by
      intro k
      by_cases hk : optionTopic x = k
      · subst hk
        have : pre.filter (fun y => optionTopic y = optionTopic x) = [] := by
          rw [List.filter_eq_nil_iff]
          intro y hy
          simpa using h1 y hy
        rw [List.filter_append, this, List.nil_append, h2]
      · have := h k
        rw [List.filter_cons_of_neg (by simpa using hk), List.filter_append, List.filter_cons_of_neg (by simpa using hk)] at this
        rw [this, List.filter_append]
    rw [optionLoop_front hx1 hx2 post pre h1 hh' hv', optionLoop_step hx1 hx2, optionLoop_step hx1 hx2]
    congr 1
    funext a
    exact optionLoop_order opts (pre ++ post) hs (fun h => hh (by simp [h])) (fun h => hv (by simp [h])) a

end Boxes
