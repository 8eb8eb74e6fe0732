import Verif.Lemmas.ParseFill
import Verif.Spec.Sample
import Verif.Props.Precalc

/-!
# C28, C29, C30: designs accepted by the parser
-/
namespace Boxes
open Spec ShapeName
set_option linter.unusedSimpArgs false

/-! ## Sample configuration files -/

/-- a small design file, as text -/
def sampleItems : List Item :=
  [.keyword (lit "author") (lit "me"), .sample (lit "***\n* *\n***\n"),
   .shapes [(NW, [lit "**"]), (N, [lit "*"]), (E, [lit "*"]), (S, [lit "=="]), (W, [lit "* "])],
   .elastic [N, E, S, W], .padding [(lit "horiz", 1)]]

/-- the environment of the examples -/
def sampleEnv : ParseEnv := { db := sampleDb, l := true }

/-- the parsed design, or an empty one -/
def parsed (env : ParseEnv) (items : List Item) : Res DesignDef :=
  parseDesign env {} (lit "box") [] items (lit "box")

/-! ## C28 -/

/-- C28: the size check accepts exactly the shape tables in which existing shapes agree in height on horizontal sides and in
width on vertical sides. -/
theorem C28_sizes (shape : ShapeName → Shape) (hs : ∀ n, Solid (shape n)) : checkSizes shape = true ↔ SizesAgree shape :=
  checkSizes_iff shape hs

/-- C28: the elasticity check accepts exactly the shape tables in which elastic shapes exist, corners are not elastic, and
every side has one elastic shape, or two which do not touch each other. -/
theorem C28_elastic (shape : ShapeName → Shape) : seCheck shape = true ↔ ElasticOk shape := seCheck_iff shape

theorem total_rev (size : Shape → Nat) (shape : ShapeName → Shape) (a b c d e : ShapeName) :
    total size shape [a, b, c, d, e] = total size shape [e, d, c, b, a] := by
  simp only [total, List.map_cons, List.map_nil, List.sum_cons, List.sum_nil]; omega

theorem geometry_of {Q : Bxs → Prop} {d : DesignDef} (h1 : ∀ n, Plain Q (d.core.shape n)) (h2 : Final d)
    (h3 : seCheck d.core.shape = true) : Geometry d.core := by
  refine ⟨fun n => (h1 n).solid, h2.named, h2.corner, (checkSizes_iff _ (fun n => (h1 n).solid)).1 h2.sizes, (seCheck_iff _).1 h3, ?_, ?_⟩
  · rw [h2.minwidth, total_rev _ _ SW SSW S SSE SE]; rfl
  · rw [h2.minheight, total_rev _ _ NW WNW W WSW SW, Nat.max_comm]; rfl

/-- C28, C30: every design of a configuration file that is read successfully has a consistent geometry, whatever is in the
file, whatever designs came before, and whatever memory is behind the shape table: its shapes are as high and wide as recorded,
corners exist and are not elastic, elastic shapes exist, every side can be stretched, shapes along a side agree in size, and the
minimum width (height) is the larger one of the total widths (heights) of the two horizontal (vertical) sides. -/
theorem C28_accepted (env : ParseEnv) (decls : List Decl) (ps ps' : List Bxs) (ds : List DesignDef)
    (h : parseConfig env decls ps = .ok (ds, ps')) : ∀ d ∈ ds, Geometry d.core := by
  intro d hd
  obtain ⟨h1, h2, h3⟩ := parseConfig_all (Q := fun _ => True) (fun _ => trivial) (fun _ _ _ _ _ => trivial) h d hd
  exact geometry_of h1 h2 h3

theorem goodLine_blank {db : CharDb} (hs : Sane db) (w : Nat) : GoodLine db (fromAscii (nspaces w)) (List.replicate w 0x20) := by
  have hf : ¬ Forbidden db 0x20 := by
    intro h; rw [Forbidden, hs.space_ok] at h; simp at h
  refine ⟨?_, ?_, rfl, ?_, ?_⟩
  · show Text (List.replicate w 0x20) _
    induction w with
    | zero => exact .nil
    | succ w ih => exact .vis 0x20 (by decide) ih
  · intro c hc
    rw [List.eq_of_mem_replicate hc]; exact hf
  · show (List.replicate w 0x20).length = _
    simp [columns, width]
  · show List.replicate w 0x20 = _
    unfold asciiForm
    induction w with
    | zero => rfl
    | succ w ih => rw [List.replicate_succ, List.flatMap_cons, ← ih]; rfl

theorem goodSide_of {size : Shape → Nat} {shape : ShapeName → Shape} {a b c : ShapeName}
    (hpos : ∀ n, Present (shape n) → 0 < size (shape n)) (hex : ∀ n, (shape n).elastic = true → Present (shape n))
    (h : Stretchable (shape a) (shape b) (shape c)) (d : Design) (hd : d.shape = shape) : GoodSide (slots size d [a, b, c]) := by
  have key : ∀ n, (shape n).elastic = true → slotOf size (shape n) = some (size (shape n), true) ∧ 0 < size (shape n) := by
    intro n hn
    have hp := hex n hn
    exact ⟨by unfold slotOf; rw [if_pos hp, hn], hpos n hp⟩
  have key2 : ∀ n, (shape n).elastic = false → ¬ (slotOf size (shape n)).Elastic := by
    intro n hn
    unfold slotOf
    split
    · rw [hn]; exact id
    · exact id
  have key3 : ∀ n, slotOf size (shape n) ≠ none → 0 < (slotOf size (shape n)).size := by
    intro n hn
    unfold slotOf at hn ⊢
    split
    · rename_i hp; exact hpos n hp
    · rename_i hp; rw [if_neg hp] at hn; exact absurd rfl hn
  subst hd
  show GoodSide [slotOf size (d.shape a), slotOf size (d.shape b), slotOf size (d.shape c)]
  have hall : ∀ m n : ShapeName, ∀ s ∈ [slotOf size (d.shape m), slotOf size (d.shape n)], s ≠ none → 0 < s.size := by
    intro m n s hs
    simp only [List.mem_cons, List.not_mem_nil, or_false] at hs
    rcases hs with rfl | rfl
    · exact key3 m
    · exact key3 n
  rcases h with ⟨h1, h2, h3⟩ | ⟨h1, h2, h3⟩ | ⟨h1, h2, h3⟩ | ⟨h1, h2, h3, h4⟩
  · rw [(key a h1).1]
    exact .left _ _ _ (key a h1).2 (key2 b h2) (key2 c h3) (hall b c)
  · rw [(key b h2).1]
    exact .mid _ _ _ (key b h2).2 (key2 a h1) (key2 c h3) (hall a c)
  · rw [(key c h3).1]
    exact .right _ _ _ (key c h3).2 (key2 a h1) (key2 b h2) (hall a b)
  · rw [(key a h1).1, (key c h3).1]
    have : slotOf size (d.shape b) = some (size (d.shape b), false) := by
      unfold slotOf; rw [if_pos h4, h2]
    rw [this]
    exact .outer _ _ _ (key a h1).2 (hpos b h4) (key c h3).2

/-- C28: what all theorems about drawing and removing boxes assume of a design (`GoodDesign`) holds of every design that the
parser accepts, if escape sequences in shape lines are complete. -/
theorem C28_good (env : ParseEnv) (hdb : Sane env.db) (decls : List Decl) (hesc : WellEscaped decls) (ps ps' : List Bxs)
    (ds : List DesignDef) (h : parseConfig env decls ps = .ok (ds, ps')) : ∀ d ∈ ds, GoodDesign env.db d.core := by
  intro d hd
  obtain ⟨h1, h2, h3⟩ := parseConfig_all (Q := fun b => ∃ v, GoodLine env.db b v)
    (fun w => ⟨_, goodLine_blank hdb w⟩) (fun t ht b hb _ => by
      obtain ⟨v, hv⟩ := hesc t ht
      exact ⟨v, (goodLine_of hv hb).1⟩) h d hd
  have g := geometry_of h1 h2 h3
  have hw : ∀ n, Present (d.core.shape n) → 0 < (d.core.shape n).width := fun n hp => hp.2.1
  have hh : ∀ n, Present (d.core.shape n) → 0 < (d.core.shape n).height := fun n hp => hp.2.2
  have cNW := g.corner NW (by simp)
  have cNE := g.corner NE (by simp)
  have cSE := g.corner SE (by simp)
  have cSW := g.corner SW (by simp)
  refine ⟨?_, g.corner, ?_, ?_, ?_, ?_, goodSide_of hw g.elastic.exist g.elastic.top _ rfl,
    goodSide_of hw g.elastic.exist g.elastic.bottom _ rfl, goodSide_of hh g.elastic.exist g.elastic.left _ rfl,
    goodSide_of hh g.elastic.exist g.elastic.right _ rfl, ?_, ?_⟩
  · intro n _
    exact ⟨(h1 n).solid.lines, fun b hb => ⟨(h1 n).line b hb, (h1 n).solid.cols b hb⟩⟩
  · intro n hn hp
    exact g.sizes.top n (by simp at hn ⊢; rcases hn with h | h | h | h <;> simp [h]) NW (by simp) hp cNW
  · intro n hn hp
    exact g.sizes.bottom n (by simp at hn ⊢; rcases hn with h | h | h | h <;> simp [h]) SW (by simp) hp cSW
  · intro n hn hp
    exact g.sizes.left n (by simp at hn ⊢; rcases hn with h | h | h | h <;> simp [h]) NW (by simp) hp cNW
  · intro n hn hp
    exact g.sizes.right n (by simp at hn ⊢; rcases hn with h | h | h | h <;> simp [h]) NE (by simp) hp cNE
  · rw [g.minwidth]
    simp only [total, List.map_cons, List.map_nil, List.sum_cons, List.sum_nil, if_pos cNW, if_pos cNE]
    omega
  · rw [g.minheight]
    simp only [total, List.map_cons, List.map_nil, List.sum_cons, List.sum_nil, if_pos cNW, if_pos cSW]
    omega

/-- what an example shows of a design -/
def summary (r : Res DesignDef) : Option (List (ShapeName × Nat × Nat × Bool) × Nat × Nat × Nat) :=
  match r with
  | .ok d => some ((allShapes.filter (fun n => decide (Present (d.core.shape n)))).map
      (fun n => (n, (d.core.shape n).width, (d.core.shape n).height, (d.core.shape n).elastic)),
      d.core.minwidth, d.core.minheight, d.maxshapeheight)
  | _ => none

example : summary (parsed sampleEnv sampleItems) = some
    ([(NW, 2, 1, false), (N, 1, 1, true), (NE, 1, 1, false), (E, 1, 1, true), (SE, 1, 1, false), (S, 2, 1, true),
      (SW, 2, 1, false), (W, 2, 1, true)], 5, 3, 1) := by decide +kernel
example : ∃ ds ps, parseConfig sampleEnv [.box (lit "box") [] sampleItems (lit "BOX")] [] = .ok (ds, ps) ∧ ds ≠ [] := by
  have h : (match parseConfig sampleEnv [.box (lit "box") [] sampleItems (lit "BOX")] [] with
    | .ok (ds, _) => !ds.isEmpty | _ => false) = true := by decide +kernel
  split at h
  · rename_i ds ps he
    exact ⟨ds, ps, he, by intro e; subst e; simp at h⟩
  · simp at h
example : WellEscaped [.box (lit "box") [] sampleItems (lit "BOX")] := by
  intro s hs
  have : ∀ s ∈ fileTexts [.box (lit "box") [] sampleItems (lit "BOX")], ∀ c ∈ s, c ≠ 0x1b := by decide
  have hs' := this s hs
  clear this hs
  refine ⟨s, ?_⟩
  induction s with
  | nil => exact .nil
  | cons c s ih => exact .vis c (hs' c (by simp)) (ih (fun x hx => hs' x (by simp [hx])))

/-- the result is an error message, nothing worse -/
def refused {α : Type} : Res α → Bool
  | .fail _ => true
  | _ => false

/-- elastic corner; elastic shape that does not exist; adjoining elastic shapes; side without elastic shape; different heights
on a horizontal side; different widths on a vertical side; lines of different width -/
example : ∀ items ∈ [
    [Item.sample (lit "x\n"), .shapes [(NW, [lit "*"])], .elastic [NW]],
    [.sample (lit "x\n"), .shapes [(N, [lit "*"])], .elastic [N, NNW]],
    [.sample (lit "x\n"), .shapes [(N, [lit "*"]), (NNE, [lit "*"])], .elastic [N, NNE]],
    [.sample (lit "x\n"), .shapes [(N, [lit "*"]), (S, [lit "*"])], .elastic [N]],
    [.sample (lit "x\n"), .shapes [(N, [lit "*"]), (NW, [lit "*", lit "*"])], .elastic [N]],
    [.sample (lit "x\n"), .shapes [(NE, [lit "*"]), (E, [lit "**"])], .elastic [E]],
    [.sample (lit "x\n"), .shapes [(N, [lit "*", lit "**"])], .elastic [N]]],
    refused (parsed sampleEnv items) = true := by decide +kernel
example : refused (parsed sampleEnv [.sample (lit "x\n"), .shapes [(N, [lit "*"])], .elastic [N]]) = false := by decide +kernel

/-! ## C11: the endless loop is reachable -/

/-- a design file with a top side of width `2 + 2·n` and a bottom side of width `3 + 2·n` -/
def endlessItems : List Item :=
  [.sample (lit "x\n"),
   .shapes [(NW, [lit "+"]), (N, [lit "=="]), (NE, [lit "+"]), (SE, [lit "+"]), (S, [lit "--"]), (SSW, [lit "o"]), (SW, [lit "+"])],
   .elastic [N, S]]

/-- C11: designs for which the computation of the box width never ends are accepted by the parser. -/
theorem C11_accepted_never_ends : ∃ d, parsed sampleEnv endlessItems = .ok d ∧
    ∀ maxline fuel, horizPrecalc d.core maxline fuel = none := by
  have h : (match parsed sampleEnv endlessItems with
    | .ok d => decide (slots (·.width) d.core [NNW, N, NNE] = [none, some (2, true), none] ∧
        slots (·.width) d.core [SSE, S, SSW] = [none, some (2, true), some (1, false)] ∧ (d.core.shape NW).width = 1 ∧
        (d.core.shape NE).width = 1 ∧ (d.core.shape SE).width = 1 ∧ d.core.minwidth = 5)
    | _ => false) = true := by decide +kernel
  split at h
  · rename_i d hd
    obtain ⟨h1, h2, h3, h4, h5, h6⟩ := of_decide_eq_true h
    refine ⟨d, hd, ?_⟩
    intro maxline fuel
    have hN : GoodSide (slots (·.width) d.core [NNW, N, NNE]) := by
      rw [h1]; exact .mid none 2 none (by decide) (by decide) (by decide) (by decide)
    have hS : GoodSide (slots (·.width) d.core [SSE, S, SSW]) := by
      rw [h2]; exact .mid none 2 (some (1, false)) (by decide) (by decide) (by decide) (by decide)
    cases hr : horizPrecalc d.core maxline fuel with
    | none => rfl
    | some r =>
      have := (C11_horizontal_iff d.core maxline hN hS (by omega)).1 ⟨fuel, r, hr⟩
      rw [common_iff hN hS, h1, h2] at this
      exact absurd this (by decide)
  · simp at h

/-! ## C29 -/

/-- C29: processing the shapes of a design, whatever the memory behind the shape table: a successful result has all corners and
a shape in the middle of each side, shapes of the design file are unchanged (but labelled with their name), and every other
shape is either still missing or a blank corner or a blank elastic middle shape; the rest of the design is unchanged. -/
theorem C29_kept (env : ParseEnv) (st st' : ParseState) (h : finalizeShapes env st = .ok st') :
    (∀ n ∈ [NW, NE, SE, SW], Present (st'.cur.core.shape n)) ∧
    (∀ side ∈ [[NNW, N, NNE], [ENE, E, ESE], [SSE, S, SSW], [WSW, W, WNW]], ∃ n ∈ side, Present (st'.cur.core.shape n)) ∧
    (∀ n, Present (st.cur.core.shape n) → st'.cur.core.shape n = { st.cur.core.shape n with name := n }) ∧
    (∀ n, ¬ Present (st.cur.core.shape n) → st'.cur.core.shape n = { st.cur.core.shape n with name := n } ∨
      ∃ w ht, 0 < w ∧ 0 < ht ∧ ((n ∈ [NW, NE, SE, SW] ∧ st'.cur.core.shape n = { blankInstead (st.cur.core.shape n) w ht false with name := n }) ∨
        (n ∈ [N, E, S, W] ∧ st'.cur.core.shape n = { blankInstead (st.cur.core.shape n) w ht true with name := n }))) ∧
    (∃ sh mw mh ms, st'.cur = { st.cur with maxshapeheight := ms, core := { st.cur.core with shape := sh, minwidth := mw, minheight := mh } }) ∧
    st'.designs = st.designs ∧ st'.mandatory = st.mandatory + 1 ∧ st'.seChecks = st.seChecks + 1 := by
  obtain ⟨sh, hc, hcor, hmid, _, _, _, rfl⟩ := finalize_ok h
  refine ⟨fun n hn => hcor n hn, ?_, ?_, ?_, ⟨_, _, _, _, rfl⟩, rfl, rfl, rfl⟩
  · have hm : ∀ i, i < 4 → ∀ side, midShapes (nthSide i) = side → ∃ n ∈ side, Present (sh n) := by
      intro i hi side hs; rw [← hs]; exact hmid i hi
    intro side hs
    simp only [List.mem_cons, List.not_mem_nil, or_false] at hs
    rcases hs with rfl | rfl | rfl | rfl
    · exact hm 0 (by omega) _ rfl
    · exact hm 1 (by omega) _ rfl
    · exact hm 2 (by omega) _ rfl
    · exact hm 3 (by omega) _ rfl
  · intro n hp
    show { sh n with name := n } = _
    rw [hc.keep n hp]
  · intro n hp
    show { sh n with name := n } = _ ∨ _
    rcases hc.made n hp with he | ⟨w, ht, e, hw, hh, hee, hn, he⟩
    · left; rw [he]
    · right
      refine ⟨w, ht, hw, hh, ?_⟩
      by_cases hcn : n ∈ [NW, NE, SE, SW]
      · left
        refine ⟨hcn, ?_⟩
        have : e = false := by
          cases e with
          | false => rfl
          | true => exact absurd hcn (hee.1 rfl)
        show { sh n with name := n } = _
        rw [he, this]; rfl
      · right
        refine ⟨?_, ?_⟩
        · simp only [List.mem_cons, List.not_mem_nil, or_false, not_or] at hcn hn ⊢
          obtain ⟨c1, c2, c3, c4⟩ := hcn
          simpa [c1, c2, c3, c4] using hn
        · show { sh n with name := n } = _
          rw [he, hee.2 hcn]; rfl

/-- C29: the design is completed as specified (`Spec.completed`): a missing corner is as wide and as high as its two sides, a
side without shapes gets one blank elastic shape.  Needed: shapes along a side agree; no foreign data is found behind the shape
table, and the left side has a shape below the top corner or is one column wide (see the theorems below for what happens
otherwise); blank lines are not longer than the program's limit; and the elastic shapes are acceptable, if already given. -/
theorem C29_completes_partial (env : ParseEnv) (st : ParseState) (hspec : 1 ≤ st.shapeSpecs)
    (hsome : ∃ n, Present (st.cur.core.shape n)) (hsolid : ∀ n, Solid (st.cur.core.shape n)) (ha : SizesAgree st.cur.core.shape)
    (hb : ¬ Present env.beyond)
    (hlim : across (·.width) st.cur.core.shape [NE, ENE, E, ESE, SE] ≤ lineMaxBytes ∧
      across (·.width) st.cur.core.shape [SW, WSW, W, WNW, NW] ≤ lineMaxBytes)
    (hwest : (∃ n ∈ [SW, WSW, W, WNW], Present (st.cur.core.shape n)) ∨
      across (·.width) st.cur.core.shape [SW, WSW, W, WNW, NW] = 1)
    (hse : 1 ≤ st.seChecks → ElasticOk (completed st.cur.core.shape)) :
    ∃ st', finalizeShapes env st = .ok st' ∧ ∀ n, st'.cur.core.shape n = { completed st.cur.core.shape n with name := n } := by
  refine finalize_completes hspec hsome hsolid ((agree_iff _).2 ha) hb hlim ?_ (fun h => (seCheck_iff _).2 (hse h))
  rcases hwest with ⟨n, hn, hp⟩ | h
  · simp only [List.mem_cons, List.not_mem_nil, or_false] at hn
    rcases hn with rfl | rfl | rfl | rfl
    · exact Or.inl hp
    · exact Or.inr (Or.inl hp)
    · exact Or.inr (Or.inr (Or.inl hp))
    · exact Or.inr (Or.inr (Or.inr (Or.inl hp)))
  · exact Or.inr (Or.inr (Or.inr (Or.inr h)))

/-- the parser's state after the shapes `defs` -/
def afterShapes (defs : List (ShapeName × List Str)) : Res ParseState := slist sampleDb defs {}

example : ∃ st, afterShapes [(N, [lit "*"]), (W, [lit "##", lit "##"])] = .ok st ∧
    1 ≤ st.shapeSpecs ∧ (∃ n, Present (st.cur.core.shape n)) ∧
    across (·.width) st.cur.core.shape [SW, WSW, W, WNW, NW] = 2 ∧
    (∃ n ∈ [SW, WSW, W, WNW], Present (st.cur.core.shape n)) ∧
    (completed st.cur.core.shape NW).width = 2 ∧ (completed st.cur.core.shape NW).height = 1 := by
  have h : (match afterShapes [(N, [lit "*"]), (W, [lit "##", lit "##"])] with
    | .ok st => decide (1 ≤ st.shapeSpecs ∧ (Present (st.cur.core.shape W)) ∧
      across (·.width) st.cur.core.shape [SW, WSW, W, WNW, NW] = 2 ∧
      (completed st.cur.core.shape NW).width = 2 ∧ (completed st.cur.core.shape NW).height = 1)
    | _ => false) = true := by decide +kernel
  split at h
  · rename_i st hst
    obtain ⟨h1, h2, h3, h4, h5⟩ := of_decide_eq_true h
    exact ⟨st, hst, h1, ⟨W, h2⟩, h3, ⟨W, by simp, h2⟩, h4, h5⟩
  · simp at h

/-- a design that consists of one corner -/
def cornerItems (corner : ShapeName) : List Item := [.sample (lit "x\n"), .shapes [(corner, [lit "***"])], .elastic [N, E, S, W]]

/-- C29: a design with only a top left corner of width 3 is refused, although the same design with any other corner is accepted:
the search for the width of the left side looks behind the end of the shape table instead of at the top left corner. -/
theorem C29_west_disagrees : refused (parsed sampleEnv (cornerItems NW)) = true ∧
    ∀ n ∈ [NE, SE, SW], ∃ d, parsed sampleEnv (cornerItems n) = .ok d := by
  refine ⟨by decide +kernel, ?_⟩
  have h : ∀ n ∈ [NE, SE, SW], (match parsed sampleEnv (cornerItems n) with | .ok _ => true | _ => false) = true := by
    decide +kernel
  intro n hn
  have := h n hn
  split at this
  · rename_i d hd; exact ⟨d, hd⟩
  · simp at this

/-- C29: the outcome for that design depends on the memory behind the shape table. -/
theorem C29_reads_beyond : (∃ e, parsed { sampleEnv with beyond := emptyShape } (cornerItems NW) = .fail e) ∧
    ∃ d, parsed { sampleEnv with beyond := mkShape NW ["***"] } (cornerItems NW) = .ok d := by
  constructor
  · have h : refused (parsed { sampleEnv with beyond := emptyShape } (cornerItems NW)) = true := by decide +kernel
    unfold refused at h
    split at h
    · rename_i e he; exact ⟨e, he⟩
    · simp at h
  · have h : (match parsed { sampleEnv with beyond := mkShape NW ["***"] } (cornerItems NW) with | .ok _ => true | _ => false) = true := by
      decide +kernel
    split at h
    · rename_i d hd; exact ⟨d, hd⟩
    · simp at h

/-! ## C30 -/

/-- C30: minimum width and height and the height of the tallest shape, for every accepted design -/
theorem C30_minimum (env : ParseEnv) (decls : List Decl) (ps ps' : List Bxs) (ds : List DesignDef)
    (h : parseConfig env decls ps = .ok (ds, ps')) : ∀ d ∈ ds,
    d.core.minwidth = max (total (·.width) d.core.shape [NW, NNW, N, NNE, NE]) (total (·.width) d.core.shape [SW, SSW, S, SSE, SE]) ∧
    d.core.minheight = max (total (·.height) d.core.shape [NW, WNW, W, WSW, SW]) (total (·.height) d.core.shape [NE, ENE, E, ESE, SE]) ∧
    (∀ n, Present (d.core.shape n) → (d.core.shape n).height ≤ d.maxshapeheight) ∧
    ∃ n, Present (d.core.shape n) ∧ (d.core.shape n).height = d.maxshapeheight := by
  intro d hd
  obtain ⟨h1, h2, h3⟩ := parseConfig_all (Q := fun _ => True) (fun _ => trivial) (fun _ _ _ _ _ => trivial) h d hd
  have g := geometry_of h1 h2 h3
  have := h2.maxheight
  refine ⟨g.minwidth, g.minheight, ?_, ?_⟩
  · intro n hp; rw [this]; exact tallest_ge hp
  · rw [this]; exact tallest_mem (h2.corner NW (by simp))

end Boxes
