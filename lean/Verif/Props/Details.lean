import Verif.Spec.Details
import Verif.Model.Details
import Verif.Lemmas.Output
import Verif.Props.Lexer
import Verif.Props.Query

/-!
# C65: the detailed description of a design
-/
namespace Boxes
open Spec ShapeName
set_option linter.unusedSimpArgs false

private theorem say_lit (s : String) : lit s = say s := rfl

private theorem number10_decimal (n : Nat) : decimal n = number10 n := rfl

private theorem commaLoop_eq : ∀ (l : List Str) (i : Nat), commaLoop l i =
    (if i > 0 ∧ l ≠ [] then say ", " else []) ++ joined (say ", ") l := by
  intro l
  induction l with
  | nil => intro i; simp [commaLoop, joined]
  | cons a r ih =>
    intro i
    rw [commaLoop, ih]
    cases r with
    | nil => by_cases h : i > 0 <;> simp [joined, h, say_lit]
    | cons c r' => by_cases h : i > 0 <;> simp [joined, h, say_lit]

private theorem commaNames_eq (l : List Str) : commaNames l = namesOrNone l := by
  unfold commaNames namesOrNone
  rw [commaLoop_eq]
  cases l <;> simp [joined, say_lit]

private theorem paddingText_eq (p : Sides Nat) : paddingText p = paddingValue p := by
  unfold paddingText paddingValue namesOrNone
  by_cases h1 : p.left = 0 <;> by_cases h2 : p.top = 0 <;> by_cases h3 : p.right = 0 <;> by_cases h4 : p.bottom = 0 <;>
    simp [h1, h2, h3, h4, joined, say_lit, number10_decimal, List.filter_cons]

/-- the text of a table with `eol` behind each row -/
def tableText (eol : Str) (rows : List (String × Str)) : Str := rows.flatMap (fun r => tableRow r ++ eol)

private theorem tableText_append (eol : Str) (a b : List (String × Str)) : tableText eol (a ++ b) = tableText eol a ++ tableText eol b := by
  simp [tableText]

private theorem tableText_cons (eol : Str) (a : String × Str) (b : List (String × Str)) :
    tableText eol (a :: b) = tableRow a ++ eol ++ tableText eol b := by
  simp [tableText]

private theorem ruleLoop_eq {color : Bool} {eol : Str} {word : String} {out : Bxs → Str} {num : Nat} :
    ∀ {rules : List Rule} {i : Nat}, i + rules.length = num →
    (∀ r ∈ rules, r.search.toOutput color = some (out r.search) ∧ r.repstr.toOutput color = some (out r.repstr)) →
    ∃ t, ruleLoop color eol (lit word) num rules i = some t ∧
      (if rules = [] then [] else List.replicate 24 0x20) ++ t =
        ((rules.zipIdx i).map (fun x => List.replicate 24 0x20 ++ (number10 (x.2 + 1) ++
          say (if x.1.mode = 'g' then ". (glob) \"" else ". (once) \"") ++ out x.1.search ++
          say "\" " ++ say word ++ say " \"" ++ out x.1.repstr ++ say "\"") ++ eol)).flatten := by
  intro rules
  induction rules with
  | nil => intro i _ _; exact ⟨[], rfl, by simp⟩
  | cons r rest ih =>
    intro i hi hr
    obtain ⟨t, h1, h2⟩ := ih (i := i + 1) (by simp at hi; omega) (fun x hx => hr x (List.mem_cons_of_mem _ hx))
    obtain ⟨e1, e2⟩ := hr r List.mem_cons_self
    rw [ruleLoop]
    simp only [e1, e2, h1, Option.bind_eq_bind, Option.bind_some]
    refine ⟨_, rfl, ?_⟩
    rw [List.zipIdx_cons, List.map_cons, List.flatten_cons, ← h2]
    have hmode : lit ". (" ++ ((if r.mode = 'g' then lit "glob" else lit "once") ++ lit ") \"") =
        say (if r.mode = 'g' then ". (glob) \"" else ". (once) \"") := by split <;> rfl
    have hlast : (if i + 1 < num then List.replicate 24 chSpace else []) = (if rest = [] then [] else List.replicate 24 0x20) := by
      cases rest with
      | nil => simp at hi; simp; omega
      | cons x y => simp at hi; simp [chSpace]; omega
    rw [hlast, ← hmode]
    simp [List.append_assoc, number10_decimal, say_lit]

/-- rows with an empty label -/
private theorem tableText_more (eol : Str) (vs : List Str) : tableText eol (vs.map (fun w => ("", w))) =
    (vs.map (fun v => List.replicate 24 0x20 ++ v ++ eol)).flatten := by
  induction vs with
  | nil => rfl
  | cons v r ih =>
    rw [List.map_cons, tableText_cons, ih]
    simp [tableRow, say]

private theorem tableText_labelled (eol : Str) (label : String) (hl : label.length ≤ 24) {vs : List Str} (hv : vs ≠ []) {t : Str}
    (ht : List.replicate 24 0x20 ++ t = (vs.map (fun v => List.replicate 24 0x20 ++ v ++ eol)).flatten) :
    tableText eol (labelled label vs) = say label ++ List.replicate (24 - label.length) 0x20 ++ t := by
  cases vs with
  | nil => exact absurd rfl hv
  | cons v r =>
    rw [labelled, tableText_cons, tableText_more]
    rw [List.map_cons, List.flatten_cons] at ht
    simp only [List.append_assoc, List.append_cancel_left_eq] at ht
    simp [tableRow, ht, List.append_assoc]

private theorem ruleText_eq {color : Bool} {eol : Str} {word : String} {out : Bxs → Str} {rules : List Rule} {label : String}
    (hl : label.length ≤ 24)
    (hr : ∀ r ∈ rules, r.search.toOutput color = some (out r.search) ∧ r.repstr.toOutput color = some (out r.repstr)) :
    ∃ t, ruleText color eol (lit word) rules = some t ∧
      say label ++ List.replicate (24 - label.length) 0x20 ++ t = tableText eol (labelled label (ruleValues out word rules)) := by
  unfold ruleText ruleValues
  cases rules with
  | nil =>
    refine ⟨lit "none" ++ eol, by simp, ?_⟩
    simp [labelled, tableText, tableRow, say_lit]
  | cons r rest =>
    obtain ⟨t, h1, h2⟩ := ruleLoop_eq (eol := eol) (word := word) (num := (r :: rest).length) (i := 0) (by omega) hr
    rw [if_pos (by simp)]
    refine ⟨t, h1, ?_⟩
    rw [if_neg (by simp)] at h2 ⊢
    rw [tableText_labelled eol label hl (by simp) (t := t)]
    rw [h2, List.map_map]
    rfl

/-! ## Shapes -/

private theorem sublist_filter {α : Type} : ∀ {L l : List α} {p : α → Bool}, L.Nodup → l.Sublist L → (∀ e ∈ L, e ∈ l ↔ p e = true) →
    l = L.filter p := by
  intro L
  induction L with
  | nil => intro l p _ h _; simpa using h
  | cons a r ih =>
    intro l p hn hs he
    obtain ⟨ha, hr⟩ := List.nodup_cons.1 hn
    cases hs with
    | cons _ hs' =>
      have hnot : ¬ p a = true := fun hp => ha (hs'.subset ((he a List.mem_cons_self).2 hp))
      rw [List.filter_cons_of_neg hnot]
      exact ih hr hs' (fun e hm => he e (List.mem_cons_of_mem _ hm))
    | cons_cons _ hs' =>
      rename_i l'
      have hp : p a = true := (he a List.mem_cons_self).1 List.mem_cons_self
      rw [List.filter_cons_of_pos hp]
      congr 1
      refine ih hr hs' (fun e hm => ?_)
      rw [← he e (List.mem_cons_of_mem _ hm), List.mem_cons]
      constructor
      · exact Or.inr
      · rintro (rfl | h)
        · exact absurd hm ha
        · exact h

private theorem clockwise_eq : clockwise = allShapes.map (fun n => (n, String.ofList ((shapeLabel n).map Char.ofNat))) := by decide

private theorem clockwise_label {e : ShapeName × String} (h : e ∈ clockwise) : shapeLabel e.1 = say e.2 ∧ e.2.length ≤ 3 := by
  revert e; decide

private theorem clockwise_names : clockwise.map (·.1) = allShapes := by decide

private theorem elasticLoop_eq (shape : ShapeName → Shape) : ∀ (l : List (ShapeName × String)) (b : Bool), (∀ e ∈ l, e ∈ clockwise) →
    elasticLoop shape (l.map (·.1)) b =
      (let f := l.filter (fun e => !(shape e.1).isEmpty && (shape e.1).elastic)
       (if b = true ∧ f ≠ [] then say ", " else []) ++ joined (say ", ") (f.map (fun e => say e.2))) := by
  intro l
  induction l with
  | nil => intro b _; simp [elasticLoop, joined]
  | cons e r ih =>
    intro b hc
    have hr := fun x => ih x (fun e he => hc e (List.mem_cons_of_mem _ he))
    have hlab := (clockwise_label (hc e List.mem_cons_self)).1
    rw [List.map_cons, elasticLoop]
    by_cases h1 : (shape e.1).isEmpty = true
    · rw [if_pos h1, hr, List.filter_cons_of_neg (by simp [h1])]
    · by_cases h2 : (shape e.1).elastic = true
      · rw [if_neg h1, if_pos h2, hr]
        simp only [h1, h2, hlab, List.filter_cons, Bool.not_false, Bool.and_true, if_true, List.map_cons]
        generalize hf : r.filter (fun e => !(shape e.1).isEmpty && (shape e.1).elastic) = f
        cases f with
        | nil => by_cases hb : b = true <;> simp [hb, joined, say_lit]
        | cons x y => by_cases hb : b = true <;> simp [hb, joined, say_lit]
      · rw [if_neg h1, if_neg h2, hr, List.filter_cons_of_neg (by simp [h2])]

private theorem shapeTextLoop_eq {db : CharDb} {color : Bool} {eol : Str} {first : Bool} {n : ShapeName} {name : String} {s : Shape}
    {esc : Bxs → Str} (hlab : shapeLabel n = say name) (hlen : name.length ≤ 3) (hh : s.lines.length = s.height)
    (he : ∀ b ∈ s.lines, ∃ e, escape db b = some e ∧ e.toOutput color = some (esc b)) :
    ∀ (k w : Nat), w + k = s.height → ∃ t, shapeTextLoop db color eol first n s k w = some t ∧
      t = (((s.lines.zipIdx).drop w).map (fun x => padRight 24 (if first && x.2 == 0 then lit "Defined Shapes:" else []) ++
        (List.replicate (if x.2 = 0 then 3 - name.length else 4) 0x20 ++ (if x.2 = 0 then say name ++ say ":" else []) ++ say " \"" ++
          esc x.1 ++ say "\"" ++ say (if x.2 + 1 = s.lines.length then " " else ",")) ++ eol)).flatten := by
  intro k
  induction k with
  | zero =>
    intro w hw
    refine ⟨[], rfl, ?_⟩
    rw [List.drop_eq_nil_of_le (by simp; omega)]; rfl
  | succ k ih =>
    intro w hw
    obtain ⟨t, h1, h2⟩ := ih (w + 1) (by omega)
    have hlt : w < s.lines.length := by omega
    have hget : s.lines[w]? = some s.lines[w] := List.getElem?_eq_getElem hlt
    obtain ⟨e, e1, e2⟩ := he s.lines[w] (List.getElem_mem hlt)
    rw [shapeTextLoop]
    simp only [hget, e1, e2, h1, Option.bind_eq_bind, Option.bind_some]
    refine ⟨_, rfl, ?_⟩
    have hd : (s.lines.zipIdx).drop w = (s.lines[w], w) :: (s.lines.zipIdx).drop (w + 1) := by
      rw [List.drop_eq_getElem_cons (by simpa using hlt)]
      simp
    rw [hd, List.map_cons, List.flatten_cons, ← h2]
    have hsl : (say name).length = name.length := by rw [say, List.length_map, String.length_toList]
    by_cases hw0 : w = 0
    · subst hw0
      by_cases hlast : (1 = s.lines.length)
      · simp [hlab, padLeft, hsl, ← hh, ← hlast, say_lit, chSpace, List.append_assoc]
      · have : 0 < s.lines.length - 1 := by omega
        simp [hlab, padLeft, hsl, ← hh, hlast, this, say_lit, chSpace, List.append_assoc]
    · have hsp : padLeft 3 ([] : Str) ++ (lit " " ++ lit " \"") = List.replicate 4 0x20 ++ say " \"" := by decide
      by_cases hlast : (w + 1 = s.lines.length)
      · have h3 : ¬ w < s.lines.length - 1 := by omega
        simp [hw0, ← hh, hlast, h3, say_lit, List.append_assoc]
        rfl
      · have h3 : w < s.lines.length - 1 := by omega
        simp [hw0, ← hh, hlast, h3, say_lit, List.append_assoc]
        rfl

/-- the rows of the shapes, without labels in front of the first one unless `first` -/
private theorem shapesText_eq {db : CharDb} {color : Bool} {eol : Str} {shape : ShapeName → Shape} {esc : Bxs → Str}
    (hh : ∀ n, ¬ (shape n).isDeepEmpty = true → (shape n).lines.length = (shape n).height)
    (he : ∀ n, ¬ (shape n).isDeepEmpty = true → ∀ b ∈ (shape n).lines, ∃ e, escape db b = some e ∧ e.toOutput color = some (esc b)) :
    ∀ (l : List (ShapeName × String)) (first : Bool), (∀ e ∈ l, e ∈ clockwise) →
    shapesText db color eol shape (l.map (·.1)) first =
      (let vs := (l.filter (fun e => !(shape e.1).isDeepEmpty)).flatMap (fun e => shapeValues esc e.2 (shape e.1).lines)
       some (tableText eol (if first then labelled "Defined Shapes:" vs else vs.map (fun w => ("", w))))) := by
  intro l
  induction l with
  | nil => intro first _; cases first <;> rfl
  | cons e r ih =>
    intro first hc
    have hr := fun x => ih x (fun e he => hc e (List.mem_cons_of_mem _ he))
    obtain ⟨hlab, hlen⟩ := clockwise_label (hc e List.mem_cons_self)
    rw [List.map_cons, shapesText]
    by_cases h1 : (shape e.1).isDeepEmpty = true
    · rw [if_pos h1, hr, List.filter_cons_of_neg (by simp [h1])]
    · rw [if_neg h1, List.filter_cons_of_pos (by simp [h1]), hr]
      obtain ⟨t, t1, t2⟩ := shapeTextLoop_eq (eol := eol) (first := first) hlab hlen (hh _ h1) (he _ h1) (shape e.1).height 0 (by omega)
      simp only [t1, Option.bind_eq_bind, Option.bind_some, Bool.false_eq_true, if_false, List.flatMap_cons]
      congr 1
      generalize (r.filter (fun e => !(shape e.1).isDeepEmpty)).flatMap (fun e => shapeValues esc e.2 (shape e.1).lines) = vs
      have hne : (shape e.1).lines ≠ [] := by
        intro h0
        apply h1
        simp [Shape.isDeepEmpty, Shape.isEmpty, h0]
      rw [List.drop_zero] at t2
      obtain ⟨b, bs, hb⟩ := List.exists_cons_of_ne_nil hne
      subst t2
      have hrest : ∀ (l : List Bxs) (k : Nat), k > 0 → ((l.zipIdx k).map (fun x => padRight 24 (if first && x.2 == 0 then lit "Defined Shapes:" else []) ++
          (List.replicate (if x.2 = 0 then 3 - e.2.length else 4) 0x20 ++ (if x.2 = 0 then say e.2 ++ say ":" else []) ++ say " \"" ++
            esc x.1 ++ say "\"" ++ say (if x.2 + 1 = (shape e.1).lines.length then " " else ",")) ++ eol)).flatten =
          tableText eol (((l.zipIdx k).map (fun x =>
            List.replicate (if x.2 = 0 then 3 - e.2.length else 4) 0x20 ++ (if x.2 = 0 then say e.2 ++ say ":" else []) ++ say " \"" ++
            esc x.1 ++ say "\"" ++ say (if x.2 + 1 = (shape e.1).lines.length then " " else ","))).map (fun w => ("", w))) := by
        intro l
        induction l with
        | nil => intro k _; rfl
        | cons a q ihq =>
          intro k hk
          have hk' : ¬ k = 0 := by omega
          rw [List.zipIdx_cons, List.map_cons, List.flatten_cons, ihq (k + 1) (by omega), List.map_cons, List.map_cons, tableText_cons]
          simp [hk', padRight, tableRow, say, chSpace]
      have hv : shapeValues esc e.2 (shape e.1).lines = _ := rfl
      unfold shapeValues
      rw [hb, List.zipIdx_cons, ← hb, List.map_cons, List.map_cons, List.flatten_cons, hrest bs (0 + 1) (by omega)]
      cases first with
      | true =>
        have hd : "Defined Shapes:".length = 15 := by decide
        simp only [if_true, List.cons_append, labelled, List.map_append, tableText_append, tableText_cons]
        simp [hd, padRight, tableRow, say_lit, chSpace, List.append_assoc, say]
      | false =>
        simp only [Bool.false_eq_true, if_false, List.cons_append, List.map_cons, List.map_append, tableText_append, tableText_cons]
        simp [padRight, tableRow, say_lit, chSpace, List.append_assoc, say]

/-! ## The description -/

private theorem row_eq {padded : Str} {label : String} (h : padded = say label ++ List.replicate (24 - label.length) 0x20)
    (v eol rest : Str) : padded ++ (v ++ (eol ++ rest)) = tableRow (label, v) ++ eol ++ rest := by
  rw [h, tableRow]; simp only [List.append_assoc]

private theorem killWord (kill : Bool) : (if (!kill) = true then lit "no" else lit "yes") = say (if kill then "yes" else "no") := by
  cases kill <;> rfl

private theorem indentText_eq (m : Char) : indentText m = if m = 'b' then say "box (indent box)"
    else if m = 't' then say "text (retain indentation inside of box)" else say "none (discard indentation)" := rfl

private theorem assemble {eol A name B D R v0 v1 v2 v3 v4 t1 t2 w X h Y v8 v9 v10 v11 pic tail : Str} {rowsA rowsB rowsC : List (String × Str)}
    (hA : say "Replacement Rules:" ++ List.replicate (24 - "Replacement Rules:".length) 0x20 ++ t1 = tableText eol rowsA)
    (hB : say "Reversion Rules:" ++ List.replicate (24 - "Reversion Rules:".length) 0x20 ++ t2 = tableText eol rowsB)
    (hpic : pic = tableText eol rowsC ++ tail) :
    A ++ name ++ B ++ eol ++ D ++ R ++ eol ++
    lit "Alias Names:            " ++ v0 ++ eol ++
    lit "Author:                 " ++ v1 ++ eol ++
    lit "Original Designer:      " ++ v2 ++ eol ++
    lit "Configuration File:     " ++ v3 ++ eol ++
    lit "Indentation Mode:       " ++ v4 ++ eol ++
    lit "Replacement Rules:      " ++ t1 ++
    lit "Reversion Rules:        " ++ t2 ++
    lit "Minimum Box Dimensions: " ++ w ++ X ++ h ++ Y ++ eol ++
    lit "Default Padding:        " ++ v8 ++ eol ++
    lit "Default Killblank:      " ++ v9 ++ eol ++
    lit "Tags:                   " ++ v10 ++ eol ++
    lit "Elastic Shapes:         " ++ v11 ++ eol ++
    pic =
    A ++ name ++ B ++ eol ++ (D ++ R) ++ eol ++
      tableText eol ([("Alias Names:", v0), ("Author:", v1), ("Original Designer:", v2), ("Configuration File:", v3), ("Indentation Mode:", v4)] ++ rowsA ++ rowsB ++
        [("Minimum Box Dimensions:", w ++ X ++ h ++ Y), ("Default Padding:", v8), ("Default Killblank:", v9), ("Tags:", v10), ("Elastic Shapes:", v11)] ++ rowsC) ++ tail := by
  subst hpic
  have h5 : lit "Replacement Rules:      " = say "Replacement Rules:" ++ List.replicate (24 - "Replacement Rules:".length) 0x20 := by decide
  have h6 : lit "Reversion Rules:        " = say "Reversion Rules:" ++ List.replicate (24 - "Reversion Rules:".length) 0x20 := by decide
  have h0 : lit "Alias Names:            " = say "Alias Names:" ++ List.replicate (24 - "Alias Names:".length) 0x20 := by decide
  have h1 : lit "Author:                 " = say "Author:" ++ List.replicate (24 - "Author:".length) 0x20 := by decide
  have h2 : lit "Original Designer:      " = say "Original Designer:" ++ List.replicate (24 - "Original Designer:".length) 0x20 := by decide
  have h3 : lit "Configuration File:     " = say "Configuration File:" ++ List.replicate (24 - "Configuration File:".length) 0x20 := by decide
  have h4 : lit "Indentation Mode:       " = say "Indentation Mode:" ++ List.replicate (24 - "Indentation Mode:".length) 0x20 := by decide
  have h7 : lit "Minimum Box Dimensions: " = say "Minimum Box Dimensions:" ++ List.replicate (24 - "Minimum Box Dimensions:".length) 0x20 := by decide
  have h8 : lit "Default Padding:        " = say "Default Padding:" ++ List.replicate (24 - "Default Padding:".length) 0x20 := by decide
  have h9 : lit "Default Killblank:      " = say "Default Killblank:" ++ List.replicate (24 - "Default Killblank:".length) 0x20 := by decide
  have h10 : lit "Tags:                   " = say "Tags:" ++ List.replicate (24 - "Tags:".length) 0x20 := by decide
  have h11 : lit "Elastic Shapes:         " = say "Elastic Shapes:" ++ List.replicate (24 - "Elastic Shapes:".length) 0x20 := by decide
  rw [← h5] at hA
  rw [← h6] at hB
  simp only [tableText_append, tableText_cons, ← hA, ← hB, tableRow]
  rw [← h0]
  rw [← h1]
  rw [← h2]
  rw [← h3]
  rw [← h4]
  rw [← h7]
  rw [← h8]
  rw [← h9]
  rw [← h10]
  rw [← h11]
  clear h0 h1 h2 h3 h4 h5 h6 h7 h8 h9 h10 h11 hA hB
  generalize lit "Alias Names:            " = l0
  generalize lit "Author:                 " = l1
  generalize lit "Original Designer:      " = l2
  generalize lit "Configuration File:     " = l3
  generalize lit "Indentation Mode:       " = l4
  generalize lit "Replacement Rules:      " = l5
  generalize lit "Reversion Rules:        " = l6
  generalize lit "Minimum Box Dimensions: " = l7
  generalize lit "Default Padding:        " = l8
  generalize lit "Default Killblank:      " = l9
  generalize lit "Tags:                   " = l10
  generalize lit "Elastic Shapes:         " = l11
  have hnil : tableText eol [] = [] := rfl
  simp only [hnil, List.append_assoc, List.nil_append, List.append_nil]


/-- C65: the description of a design: a heading with an underline of the same length, and the table of everything that was declared
(or the defaults in place of it), with the shapes that show something (or the sample, on request). -/
theorem C65_details {db : CharDb} (hdb : Sane db) (hbs : db.cntrl '\\'.toNat = false) (color : Bool) (eol : Str) (qundoc : Bool)
    (definedIn : Bxs) (d : DesignDef) (first : Bxs) (parents : List Bxs) (ds : List DesignDef)
    (htext : ∀ b, d.author = some b ∨ d.designer = some b ∨ b = definedIn ∨ d.sample = some b ∨
      (∃ r, (r ∈ d.reprules ∨ r ∈ d.revrules) ∧ (b = r.search ∨ b = r.repstr)) → Analysed db b)
    (hsample : d.sample ≠ none)
    (hshape : ∀ n, Present (d.core.shape n) → GoodShape db (d.core.shape n))
    (hlines : ∀ n, ¬ BlankShape db (d.core.shape n) → ∀ b ∈ (d.core.shape n).lines, Analysed db b)
    {kill : Bool} (hkill : kill = false ↔ BlankSide db d.core [NW, NNW, N, NNE, NE] ∧ BlankSide db d.core [SE, SSE, S, SSW, SW])
    {elastic visible : List (ShapeName × String)}
    (hel : AllWith (fun n => Present (d.core.shape n) ∧ (d.core.shape n).elastic = true) elastic)
    (hvis : AllWith (fun n => ¬ BlankShape db (d.core.shape n)) visible) :
    ∃ out esc : Bxs → Str, (∀ b, Analysed db b → Shown db color b (out b)) ∧
      (∀ n, ¬ BlankShape db (d.core.shape n) → ∀ b ∈ (d.core.shape n).lines, EscapedShown color b (esc b)) ∧
      let heading := say "Complete Design Information for \"" ++ d.name ++ say "\":"
      listDesignsOrOne db color eol qundoc (some (d, definedIn)) first parents ds = some
        (heading ++ eol ++ List.replicate heading.length '-'.toNat ++ eol ++
          tableText eol (detailRows out esc definedIn d kill elastic visible qundoc) ++
          if qundoc then say "Sample:" ++ eol ++ d.sample.elim [] out ++ eol else []) := by
  have hdeep : ∀ n, (d.core.shape n).isDeepEmpty = true ↔ BlankShape db (d.core.shape n) := fun n => isDeepEmpty_iff hdb (hshape n)
  refine ⟨fun b => (b.toOutput color).getD [], fun b => ((escape db b).bind (·.toOutput color)).getD [], ?_, ?_, ?_⟩
  · rintro b ⟨s, v, h1, h2⟩
    refine ⟨s, v, h1, h2, ?_⟩
    cases color
    · simp [(C03_output db h1 h2).2]
    · simp [(C03_output db h1 h2).1]
  · intro n hn b hb
    obtain ⟨s, v, h1, h2⟩ := hlines n hn b hb
    obtain ⟨e, e1, e2⟩ := C40_escape db hbs h1 h2
    have hmem : b.memory = s := (C01_metrics db h1 h2).1
    obtain ⟨-, ev, -, h4, -⟩ := escaped_text e2
    have he : fromUnicode db e.memory = some e := by
      have : e.memory = escapeText b b.memory 0 := fromUnicode_memory e1
      rw [this]; exact e1
    refine ⟨e.memory, ev, hmem ▸ e2, h4, ?_⟩
    cases color
    · simp [e1, (C03_output db h4 he).2]
    · simp [e1, (C03_output db h4 he).1]
  · have hout : ∀ b, Analysed db b → b.toOutput color = some ((b.toOutput color).getD []) := by
      rintro b ⟨s, v, h1, h2⟩
      cases color
      · simp [(C03_output db h1 h2).2]
      · simp [(C03_output db h1 h2).1]
    have hesc : ∀ n, ¬ (d.core.shape n).isDeepEmpty = true → ∀ b ∈ (d.core.shape n).lines, ∃ e, escape db b = some e ∧
        e.toOutput color = some (((escape db b).bind (·.toOutput color)).getD []) := by
      intro n hn b hb
      obtain ⟨s, v, h1, h2⟩ := hlines n (fun h => hn ((hdeep n).2 h)) b hb
      obtain ⟨e, e1, e2⟩ := C40_escape db hbs h1 h2
      obtain ⟨-, ev, -, h4, -⟩ := escaped_text e2
      have he : fromUnicode db e.memory = some e := by
        have : e.memory = escapeText b b.memory 0 := fromUnicode_memory e1
        rw [this]; exact e1
      refine ⟨e, e1, ?_⟩
      cases color
      · simp [e1, (C03_output db h4 he).2]
      · simp [e1, (C03_output db h4 he).1]
    generalize hO : (fun b : Bxs => (b.toOutput color).getD []) = out at *
    generalize hE : (fun b : Bxs => ((escape db b).bind (·.toOutput color)).getD []) = esc at *
    have hout' : ∀ b, Analysed db b → b.toOutput color = some (out b) := by subst hO; exact hout
    have hesc' : ∀ n, ¬ (d.core.shape n).isDeepEmpty = true → ∀ b ∈ (d.core.shape n).lines, ∃ e, escape db b = some e ∧
        e.toOutput color = some (esc b) := by subst hE; exact hesc
    clear hout hesc hO hE
    obtain ⟨sm, hsm⟩ := Option.ne_none_iff_exists'.1 hsample
    have hcred : ∀ (o : Option Bxs) (u : String), (∀ b, o = some b → Analysed db b) → creditText color o (lit u) = some (o.elim (say u) out) := by
      intro o u h
      cases o with
      | none => rfl
      | some b => exact hout' b (h b rfl)
    obtain ⟨t1, r1, r2⟩ := ruleText_eq (color := color) (eol := eol) (word := "WITH") (out := out) (rules := d.reprules)
      (label := "Replacement Rules:") (by decide)
      (fun r hr => ⟨hout' _ (htext _ (Or.inr (Or.inr (Or.inr (Or.inr ⟨r, Or.inl hr, Or.inl rfl⟩))))),
        hout' _ (htext _ (Or.inr (Or.inr (Or.inr (Or.inr ⟨r, Or.inl hr, Or.inr rfl⟩)))))⟩)
    obtain ⟨t2, r3, r4⟩ := ruleText_eq (color := color) (eol := eol) (word := "TO") (out := out) (rules := d.revrules)
      (label := "Reversion Rules:") (by decide)
      (fun r hr => ⟨hout' _ (htext _ (Or.inr (Or.inr (Or.inr (Or.inr ⟨r, Or.inr hr, Or.inl rfl⟩))))),
        hout' _ (htext _ (Or.inr (Or.inr (Or.inr (Or.inr ⟨r, Or.inr hr, Or.inr rfl⟩)))))⟩)
    have hkb : (emptySide d.core.shape northSide && emptySide d.core.shape southSide) = !kill := by
      have h1 := emptySide_iff hdb hshape northSide
      have h2 := emptySide_iff hdb hshape southSide
      rw [Bool.eq_iff_iff, Bool.and_eq_true, h1, h2, Bool.not_eq_true', hkill]
      rfl
    have hnd : clockwise.Nodup := by decide
    have helast : elasticLoop d.core.shape allShapes false = joined (say ", ") (elastic.map (fun e => say e.2)) := by
      rw [← clockwise_names, elasticLoop_eq _ _ _ (fun e h => h)]
      rw [sublist_filter (p := fun e => !(d.core.shape e.1).isEmpty && (d.core.shape e.1).elastic) hnd hel.1 ?_]
      · simp
      · intro e he
        rw [hel.2 e he]
        show Present (d.core.shape e.1) ∧ (d.core.shape e.1).elastic = true ↔ _
        rw [Bool.and_eq_true, Bool.not_eq_true', present_iff]
    have hshapes : shapesText db color eol d.core.shape allShapes true = some (tableText eol (labelled "Defined Shapes:"
        (visible.flatMap (fun e => shapeValues esc e.2 (d.core.shape e.1).lines)))) := by
      rw [← clockwise_names, shapesText_eq (esc := esc) ?_ hesc' _ _ (fun e h => h)]
      · rw [sublist_filter (p := fun e => !(d.core.shape e.1).isDeepEmpty) hnd hvis.1 ?_]
        · simp
        · intro e he
          rw [hvis.2 e he]
          show ¬ BlankShape db (d.core.shape e.1) ↔ _
          rw [← hdeep]; simp
      · intro n hn
        have hpr : Present (d.core.shape n) := by
          apply Classical.byContradiction
          intro hp
          exact hn ((hdeep n).2 (fun h => absurd h hp))
        exact (hshape n hpr).height
    have hul : lit "-----------------------------------" ++ List.replicate d.name.length chMinus =
        List.replicate (say "Complete Design Information for \"" ++ d.name ++ say "\":").length '-'.toNat := by
      have h35 : lit "-----------------------------------" = List.replicate 35 '-'.toNat := by decide
      have hm : chMinus = '-'.toNat := rfl
      rw [h35, hm, List.replicate_append_replicate]
      congr 1
      have h1 : (say "Complete Design Information for \"").length = 33 := by decide
      have h2 : (say "\":").length = 2 := by decide
      simp only [List.length_append, h1, h2]; omega
    have hsamp : d.sample.bind (·.toOutput color) = some (d.sample.elim [] out) := by
      rw [hsm]; exact hout' sm (htext _ (Or.inr (Or.inr (Or.inr (Or.inl hsm)))))
    dsimp only
    show printDesignDetails db color eol qundoc definedIn d = _
    unfold printDesignDetails
    rw [hcred d.author _ (fun b h => htext b (Or.inl h)), hcred d.designer _ (fun b h => htext b (Or.inr (Or.inl h))),
      hout' definedIn (htext _ (Or.inr (Or.inr (Or.inl rfl)))), r1, r3, hshapes, hkb, helast, hsamp, paddingText_eq,
      commaNames_eq, commaNames_eq, killWord, indentText_eq]
    dsimp only
    rw [← hul]
    unfold detailRows
    cases qundoc
    · exact congrArg some (assemble r2 r4 (List.append_nil _).symm)
    · exact congrArg some (assemble r2 r4 rfl)

/-- C65: without a chosen design, all of them are listed (C39). -/
theorem C65_all (db : CharDb) (color : Bool) (eol : Str) (qundoc : Bool) (first : Bxs) (parents : List Bxs) (ds : List DesignDef)
    (hs : ∀ d ∈ ds, d.sample ≠ none) (out : Bxs → Str)
    (hout : ∀ d ∈ ds, ∀ x, d.sample = some x ∨ d.author = some x ∨ d.designer = some x → Shown db color x (out x)) :
    listDesignsOrOne db color eol qundoc none first parents ds = some (designListHeader eol ds.length first parents ++
      (sortDesignsByName ds).flatMap (fun d =>
        d.name ++ (if d.aliases = [] then [] else say " alias " ++ joined (say ", ") d.aliases) ++
        ((credits out d).elim [] (eol ++ ·)) ++ say ":" ++ eol ++ eol ++ d.sample.elim [] out ++ eol ++ eol) ++
      printTags eol (sortedTagStats ds)) := by
  obtain ⟨texts, h1, h2⟩ := C39_list db color eol first parents ds hs out hout
  show listDesigns color eol first parents ds = _
  rw [h2, List.flatMap_def]
  congr 3
  have hinj : ∀ a b : List Str, a.map some = b.map some → a = b := by
    intro a b h
    have := congrArg (List.filterMap id) h
    simpa [List.filterMap_map] using this
  congr 1
  apply hinj
  rw [← h1, List.map_map]
  apply List.map_congr_left
  intro d hd
  have hd' : d ∈ ds := (C39_sorted ds).1.mem_iff.1 hd
  obtain ⟨b, hb⟩ := Option.ne_none_iff_exists'.1 (hs d hd')
  rw [C39_entry db color eol d hb out (hout d hd')]
  simp [hb, say_lit]

/-! ## Examples -/

private def detailed : DesignDef :=
  { name := lit "star", aliases := [lit "st", lit "s2"], designer := some (fromAscii (lit "Bo")),
    sample := some (fromAscii (lit "***")), tags := [lit "simple"],
    reprules := [⟨fromAscii (lit "a"), fromAscii (lit "b"), 'g'⟩, ⟨fromAscii (lit "c"), fromAscii (lit "d"), 'o'⟩],
    core := { indentmode := 't', minwidth := 3, minheight := 12, padding := ⟨0, 2, 0, 1⟩,
              shape := fun n => match n with
                | .NW => mkShape .NW ["/*", "\\\""]
                | .N => { mkShape .N ["*", "-"] with elastic := true }
                | .W => { mkShape .W ["  "] with elastic := true }
                | _ => emptyShape } }

/-- The blank shape W is elastic but not shown among the defined shapes. -/
example : listDesignsOrOne sampleDb true (lit "\n") false (some (detailed, fromAscii (lit "f.cfg"))) (fromAscii (lit "x")) [] [] = some (
    lit "Complete Design Information for \"star\":\n" ++
    lit "---------------------------------------\n" ++
    lit "Alias Names:            st, s2\n" ++
    lit "Author:                 (unknown author)\n" ++
    lit "Original Designer:      Bo\n" ++
    lit "Configuration File:     f.cfg\n" ++
    lit "Indentation Mode:       text (retain indentation inside of box)\n" ++
    lit "Replacement Rules:      1. (glob) \"a\" WITH \"b\"\n" ++
    lit "                        2. (once) \"c\" WITH \"d\"\n" ++
    lit "Reversion Rules:        none\n" ++
    lit "Minimum Box Dimensions: 3 x 12  (width x height)\n" ++
    lit "Default Padding:        left 1, right 2\n" ++
    lit "Default Killblank:      yes\n" ++
    lit "Tags:                   simple\n" ++
    lit "Elastic Shapes:         N, W\n" ++
    lit "Defined Shapes:          NW: \"/*\",\n" ++
    lit "                             \"\\\\\\\"\" \n" ++
    lit "                          N: \"*\",\n" ++
    lit "                             \"-\" \n") := by decide +kernel

/-- the hypotheses of the theorem about elastic shapes and printed texts hold for it -/
example : AllWith (fun n => Present (detailed.core.shape n) ∧ (detailed.core.shape n).elastic = true) [(.N, "N"), (.W, "W")] ∧
    ∀ n, n ≠ .W → ∀ b ∈ (detailed.core.shape n).lines, Analysed sampleDb b := by
  constructor
  · constructor
    · decide
    · decide
  · intro n hn b hb
    have h : ∀ n : ShapeName, n ≠ .W → ∀ b ∈ (detailed.core.shape n).lines, fromUnicode sampleDb b.memory = some b ∧ 0x1b ∉ b.memory := by
      intro n; cases n <;> decide +kernel
    obtain ⟨h1, h2⟩ := h n hn b hb
    exact ⟨b.memory, b.memory, Spec.Text.plain (fun c hc e => h2 (e ▸ hc)), h1⟩

end Boxes
