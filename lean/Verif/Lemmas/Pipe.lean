import Verif.Spec.Pipe
import Verif.Lemmas.Drawn
import Verif.Lemmas.Whole

/-!
# Lemmas: one run reads what another one printed
-/

set_option linter.unusedSimpArgs false

namespace Boxes
open Boxes.Spec ShapeName

/-! ## Lines of a text -/

theorem readInLines_tail {text p : Str} {ps : List Str} (h : ReadInLines text (p :: ps)) : ReadInLines ps.flatten ps where
  all := rfl
  nonempty := fun q hq => h.nonempty q (List.mem_cons_of_mem _ hq)
  inside := fun q hq => h.inside q (List.mem_cons_of_mem _ hq)
  ends := fun x q hx hq => h.ends (x + 1) q (by simpa using hx) (by simpa using hq)

theorem readInLines_shorter {text a b : Str} {as bs : List Str} (ha : ReadInLines text (a :: as)) (hb : ReadInLines text (b :: bs)) (h : a <+: b) : a = b := by
  obtain ⟨t, rfl⟩ := h
  by_cases ht : t = []
  · simp [ht]
  · exfalso
    have has : as ≠ [] := by
      rintro rfl
      have h1 := ha.all
      have h2 := hb.all
      simp only [List.flatten_cons, List.flatten_nil, List.append_nil] at h1 h2
      rw [← h1] at h2
      have := congrArg List.length h2
      simp only [List.length_append] at this
      have := List.length_pos_iff.2 ht
      omega
    have h1 := ha.ends 0 a (by have := List.length_pos_iff.2 has; simp; omega) rfl
    refine hb.inside _ List.mem_cons_self ?_
    rw [List.dropLast_append_of_ne_nil ht]
    exact List.mem_append_left _ (List.mem_of_getLast? h1)

/-- there is only one way of reading a text line by line -/
theorem readInLines_unique : ∀ (as bs : List Str) (text : Str), ReadInLines text as → ReadInLines text bs → as = bs := by
  intro as
  induction as with
  | nil =>
    intro bs text ha hb
    cases bs with
    | nil => rfl
    | cons b bs =>
      have h1 := ha.all
      have h2 := hb.all
      rw [← h1] at h2
      simp only [List.flatten_cons, List.flatten_nil, List.append_eq_nil_iff] at h2
      exact absurd h2.1 (hb.nonempty b List.mem_cons_self)
  | cons a as ih =>
    intro bs text ha hb
    cases bs with
    | nil =>
      have h1 := ha.all
      have h2 := hb.all
      rw [← h2] at h1
      simp only [List.flatten_cons, List.flatten_nil, List.append_eq_nil_iff] at h1
      exact absurd h1.1 (ha.nonempty a List.mem_cons_self)
    | cons b bs =>
      have h1 := ha.all
      have h2 := hb.all
      rw [List.flatten_cons] at h1 h2
      have hab : a = b := by
        rcases List.prefix_or_prefix_of_prefix (l₁ := a) (l₂ := b) (l₃ := text) ⟨_, h1⟩ ⟨_, h2⟩ with h | h
        · exact readInLines_shorter ha hb h
        · exact (readInLines_shorter hb ha h).symm
      subst hab
      have : as.flatten = bs.flatten := List.append_cancel_left (h1.trans h2.symm)
      rw [ih bs as.flatten (readInLines_tail ha) (this ▸ readInLines_tail hb)]

/-- lines without line feeds in them that have line ends -/
theorem readInLines_rows {rows : List (Str × Str)} (h1 : ∀ p ∈ rows, 0x0a ∉ p.1 ∧ p.1 ≠ [] ∧ LineEnd p.2)
    (h2 : ∀ (x : Nat) p, x + 1 < rows.length → rows[x]? = some p → p.2 ≠ []) :
    ReadInLines (rows.map (fun p => p.1 ++ p.2)).flatten (rows.map (fun p => p.1 ++ p.2)) where
  all := rfl
  nonempty := by
    intro q hq
    obtain ⟨p, hp, rfl⟩ := List.mem_map.1 hq
    simp [(h1 p hp).2.1]
  inside := by
    intro q hq
    obtain ⟨p, hp, rfl⟩ := List.mem_map.1 hq
    obtain ⟨g1, g2, g3⟩ := h1 p hp
    rcases g3 with g | g | g
    · rw [g, List.append_nil]; exact fun h => g1 ((List.dropLast_sublist _).subset h)
    · rw [g, List.dropLast_append_of_ne_nil (by simp)]; simpa using g1
    · rw [g, List.dropLast_append_of_ne_nil (by simp)]; simpa using g1
  ends := by
    intro x q hx hq
    rw [List.getElem?_map] at hq
    cases hp : rows[x]? with
    | none => rw [hp] at hq; simp at hq
    | some p =>
      rw [hp] at hq
      obtain rfl := Option.some.inj hq
      have h3 := h2 x p (by simpa using hx) hp
      rcases (h1 p (List.mem_of_getElem? hp)).2.2 with g | g | g
      · exact absurd g h3
      · simp [g]
      · simp [g]

/-! ## What is printed -/

/-- rows without escape sequences are printed as they are -/
theorem renderBox_plain (db : CharDb) (color : Bool) : ∀ (out : List (Bxs × Str)),
    (∀ p ∈ out, fromUnicode db p.1.memory = some p.1 ∧ ∀ c ∈ p.1.memory, c ≠ 0x1b) →
    renderBox color out = .ok (out.map (fun p => p.1.memory ++ p.2)).flatten := by
  intro out
  induction out with
  | nil => intro _; rfl
  | cons p more ih =>
    intro h
    obtain ⟨h1, h2⟩ := h p List.mem_cons_self
    have ho := C03_output db (Text.plain h2) h1
    obtain ⟨b, e⟩ := p
    rw [renderBox]
    have : b.toOutput color = some b.memory := by
      cases color
      · exact ho.2
      · exact ho.1
    rw [this, ih (fun q hq => h q (List.mem_cons_of_mem _ hq))]
    simp [Res.get, Res.ok_bind]

/-- the rows of a box around plain lines: they can be printed and read again -/
theorem drawn_printable (db : CharDb) (hdb : Sane db) (hbr : BreaksSane db) (opt : Opt) (ho : PlainDrawing opt) (d : Design) (hd : Restorable db d) (junk : Nat)
    (lines : List (Str × Str)) (hl : ∀ p ∈ lines, PlainLine db p.1 ∧ LineEnd p.2) (hne : lines ≠ []) (fuel : Nat) {out : List (Bxs × Str)}
    (h : drawOnce db opt d [] junk (lines.map (fun p => p.1 ++ p.2)) fuel = some (.ok out)) (color : Bool) :
    renderBox color out = .ok (out.map (fun p => p.1.memory ++ p.2)).flatten ∧
      ReadInLines (out.map (fun p => p.1.memory ++ p.2)).flatten (out.map (fun p => p.1.memory ++ p.2)) := by
  obtain ⟨out', n, above, below, w, h1, h2, -, h3, h4⟩ := drawn_rows db hdb hbr opt ho d hd junk lines hl hne fuel h
  obtain rfl := Res.ok.inj h1
  have hvs : ∀ v ∈ innerTexts above below (if d.indentmode = 't' then 0 else n) (lines.map Prod.fst), ∀ c ∈ v, CleanChar db c := by
    intro v hv c hc
    simp only [innerTexts, List.mem_append, List.mem_replicate, List.mem_map] at hv
    rcases hv with (⟨-, rfl⟩ | ⟨t, ⟨q, hq, rfl⟩, rfl⟩) | ⟨-, rfl⟩
    · simp at hc
    · exact cleanChar_plain (hl q hq).1 c (List.mem_of_mem_drop hc)
    · simp at hc
  obtain ⟨hclean, hseen⟩ := drawn_clean hdb hd h3 hvs
  refine ⟨renderBox_plain db color out fun p hp => ⟨h3.read p hp, fun c hc => (hclean p hp c hc).1⟩, ?_⟩
  have := readInLines_rows (rows := out.map (fun p => (p.1.memory, p.2))) (by
    intro q hq
    obtain ⟨p, hp, rfl⟩ := List.mem_map.1 hq
    refine ⟨fun hc => (hclean p hp _ hc).2.2.2.2.1 rfl, ?_, ?_⟩
    · obtain ⟨c, hc, -⟩ := (hseen p hp).1
      intro h0
      simp only at h0
      rw [h0] at hc; simp at hc
    · obtain ⟨x, hx⟩ := List.getElem?_of_mem hp
      obtain ⟨g1, g2⟩ := h4 x p hx
      by_cases hb : EndsInBreak (lines.map (fun p => p.1 ++ p.2)) ∨ x + 1 ≠ out.length
      · simp only; rw [g1 hb]; exact .inr ho.eol
      · exact .inl (g2 (fun h => hb (.inl h)) (Classical.byContradiction fun h => hb (.inr h)))) (by
    intro x q hx hq
    rw [List.getElem?_map] at hq
    cases hp : out[x]? with
    | none => rw [hp] at hq; simp at hq
    | some p =>
      rw [hp] at hq
      obtain rfl := Option.some.inj hq
      simp only
      rw [(h4 x p hp).1 (.inr (by simp at hx; omega))]
      rcases ho.eol with e | e <;> simp [e])
  simpa [List.map_map, Function.comp_def] using this

/-! ## The design that is used -/

theorem parseItems_env (env : ParseEnv) (r l q u : Bool) : ∀ (is : List Item) (st : ParseState),
    parseItems { env with r := r, l := l, query := q, qundoc := u } is st = parseItems env is st := by
  intro is
  induction is with
  | nil => intro st; rfl
  | cons i is ih =>
    intro st
    have h1 : parseItem { env with r := r, l := l, query := q, qundoc := u } st i = parseItem env st i := by cases i <;> rfl
    rw [parseItems, parseItems, h1]
    congr 1
    funext st'
    exact ih st'

theorem addAliases_env (env : ParseEnv) (r l q u : Bool) : ∀ (as : List Str) (st : ParseState),
    addAliases { env with r := r, l := l, query := q, qundoc := u } as st = addAliases env as st := by
  intro as
  induction as with
  | nil => intro st; rfl
  | cons a as ih =>
    intro st
    have h1 : addAlias { env with r := r, l := l, query := q, qundoc := u } st a = addAlias env st a := rfl
    rw [addAliases, addAliases, h1]
    congr 1
    funext st'
    exact ih st'

theorem parseDecls_env (env : ParseEnv) (h : env.choice.isSome = true) (r l q u : Bool) : ∀ (decls : List Decl) (ds : List DesignDef) (ps : List Bxs),
    parseDecls { env with r := r, l := l, query := q, qundoc := u } decls ds ps = parseDecls env decls ds ps := by
  have hc : env.choice.isNone = false := by cases he : env.choice <;> simp [he] at h ⊢
  have hf : fullParseRequired { env with r := r, l := l, query := q, qundoc := u } = fullParseRequired env := by simp [fullParseRequired, hc]
  have hn : ∀ st, designNeeded { env with r := r, l := l, query := q, qundoc := u } st = designNeeded env st := by
    intro st
    unfold designNeeded
    simp only
    cases he : env.choice with
    | none => rw [he] at h; simp at h
    | some n => rfl
  intro decls
  induction decls with
  | nil => intro ds ps; rfl
  | cons d decls ih =>
    intro ds ps
    cases d with
    | parent path =>
      rw [parseDecls, parseDecls]
      exact ih _ _
    | box name aliases items nameAtEnd =>
      have hd : ∀ st, parseDesign { env with r := r, l := l, query := q, qundoc := u } st name aliases items nameAtEnd = parseDesign env st name aliases items nameAtEnd := by
        intro st
        unfold parseDesign startDesign
        simp only [addAliases_env, parseItems_env, hn]
      rw [parseDecls, parseDecls, hd, hf]
      split
      · rfl
      · rw [ih]
      · rw [ih]

/-- If a design was chosen, then it does not matter for the designs that are parsed what is to be done with them. -/
theorem parseConfigFiles_env (env : ParseEnv) (contents : Bxs → Option (List Decl)) (h : env.choice.isSome = true) (r l q u : Bool) (fuel : Nat) (file : Bxs) :
    parseConfigFiles { env with r := r, l := l, query := q, qundoc := u } contents fuel file = parseConfigFiles env contents fuel file := by
  have h1 : ∀ f ch, parseConfigFile { env with r := r, l := l, query := q, qundoc := u } contents f ch = parseConfigFile env contents f ch := by
    intro f ch
    unfold parseConfigFile
    cases contents f with
    | none => rfl
    | some decls =>
      have : parseConfig { env with r := r, l := l, query := q, qundoc := u, childConfigs := ch } decls [] = parseConfig { env with childConfigs := ch } decls [] := by
        unfold parseConfig
        have := parseDecls_env { env with childConfigs := ch } h r l q u decls [] []
        simp only at this
        rw [this]
      simp only [this]
  have h2 : ∀ (n : Nat) f res ps k, mergeLoop { env with r := r, l := l, query := q, qundoc := u } contents n f res ps k = mergeLoop env contents n f res ps k := by
    intro n
    induction n with
    | zero => intro f res ps k; rfl
    | succ n ih =>
      intro f res ps k
      rw [mergeLoop, mergeLoop, h1]
      simp only [ih]
  unfold parseConfigFiles
  rw [h2]

/-! ## One more option -/

theorem optionLoop_more {x : Option'} {a' : Args} : ∀ (opts : List Option') (a0 : Args) {a : Args}, optionLoop opts a0 = some (a, false) →
    handleOption a x = some a' → optionLoop (opts ++ [x]) a0 = some (a', false) := by
  intro opts
  induction opts with
  | nil =>
    intro a0 a h1 h2
    simp only [optionLoop, Option.some.injEq, Prod.mk.injEq, and_true] at h1
    subst h1
    rw [List.nil_append, optionLoop_cons_eq [] h2]
    rfl
  | cons y opts ih =>
    intro a0 a h1 h2
    obtain ⟨a1, e1, e2⟩ := optionLoop_cons h1
    rw [List.cons_append, optionLoop_cons_eq _ e1]
    exact ih a1 e2 h2

end Boxes
