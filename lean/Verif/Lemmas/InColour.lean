import Verif.Props.Recoloured
import Verif.Props.Coloured
import Verif.Spec.InColour

/-!
# Lemmas: boxes in colour
-/
namespace Boxes
open Spec ShapeName
set_option linter.unusedSimpArgs false

theorem horizShapes_skip {db : CharDb} {d : Design} (idx : Nat) : ∀ l, compShapesHoriz db d .ignoreAll idx l = compShapesHoriz db d .ignoreShape idx l
  | [] => rfl
  | n :: r => by
    have h : ∀ a b, prepareCompShape d n idx .ignoreAll a b = prepareCompShape d n idx .ignoreShape a b := fun a b => rfl
    simp only [compShapesHoriz, horizShapes_skip idx r, h]

theorem Spec.InColour.ready {db : CharDb} {d e : Design} (h : InColour db d e) : ReadyDesign db e := recoloured_ready h.same h.plain.ready

theorem Spec.InColour.present {db : CharDb} {d e : Design} (h : InColour db d e) {n : ShapeName} : Present (e.shape n) ↔ Present (d.shape n) := recoloured_present (h.same.shapes n)

theorem inColour_deep {db : CharDb} (hdb : Sane db) {d e : Design} (h : InColour db d e) {n : ShapeName} (hn : n ∈ [WNW, W, WSW] ∨ n ∈ [ENE, E, ESE]) (hp : Present (e.shape n)) :
    (e.shape n).isDeepEmpty = false := by
  have hd := h.plain
  rw [recoloured_deepEmpty hdb hd.ready h.ready h.same]
  have hp := h.present.1 hp
  cases hh : (d.shape n).isDeepEmpty with
  | false => rfl
  | true =>
    obtain ⟨b, hb⟩ := List.exists_mem_of_ne_nil _ hp.1
    obtain ⟨c, c1, c2, -, c4⟩ : Seen db b.memory := hn.elim (fun hn => hd.west n hn hp b hb) (fun hn => hd.east n hn hp b hb)
    rcases (isDeepEmpty_iff hdb (hd.ready.good.shapes n)).1 hh hp b hb _ (Spec.Text.plain (hd.plain n hp b hb)) c c1 with h | h
    · exact absurd h c2
    · exact absurd h c4

theorem ready_text {db : CharDb} {d : Design} (hd : ReadyDesign db d) {n : ShapeName} (hp : Present (d.shape n)) {b : Bxs} (hb : b ∈ (d.shape n).lines) : ∃ v, Text b.memory v := by
  rcases hd.lines n hp b hb with ⟨w, rfl⟩ | ⟨v, h, -⟩
  · exact ⟨_, Text.plain (spaces_ne w)⟩
  · exact ⟨v, h⟩

/-- an edge of a box in colour is recognised where colours are ignored -/
theorem edge_colour {db : CharDb} (hdb : Sane db) {d e : Design} (hd : InColour db d e) (hm : designIsMono e = .ok false) (hm0 : designIsMono d = .ok true)
    {lines : List Line} {o : Sides Bool} {top : Bool}
    {i y ind : Nat} {l : Line} {b : Bxs} {row : Str} (hl : lines[i]? = some l) (hlt : l.text = some b) (hb : fromUnicode db b.memory = some b)
    (ho : o.left = false ∧ o.right = false) (hy : y < (d.shape (if top then NE else SE)).height) (ht : Text b.memory row) (hr : EdgeRow db d top ind y row) :
    matchHorizLineWith db e lines o top i y .ignoreAll = .ok true := by
  have hrec := hd.plain
  have hc := edgeRow_chars hrec hr
  have hp : ∀ c ∈ row, c ≠ 0x1b := fun c h => (hc c h).1
  have hn : NarrowBlanks db row := fun c h => (hc c h).2
  have hf : ∀ c ∈ row, ¬ Forbidden db c := by
    intro c hc hf
    have := (C01_rejected_iff db ht).2 ⟨c, hc, hf⟩
    rw [hb] at this; simp at this
  obtain ⟨b0, hb0⟩ := Option.ne_none_iff_exists'.1 (fromUnicode_allowed db hf)
  have hmem := fromUnicode_memory hb0
  have h1 : matchHorizLineWith db d [{ l with text := some b0 }] o top 0 y .literal = .ok true :=
    edge_found hdb hrec rfl (l := { l with text := some b0 }) rfl rfl (by rw [hmem]; exact hb0) (by rw [hmem]; exact hp) (by rw [hmem]; exact hn) ho hy (by rw [hmem]; exact hr)
  have h2 := horizWith_same hdb hrec.ready hd.ready hd.same hm0 hm [{ l with text := some b0 }] o top 0 y
  have h3 : matchHorizLineWith db e lines o top i y .ignoreAll = matchHorizLineWith db e [{ l with text := some b0 }] o top 0 y .ignoreShape := by
    obtain ⟨t, g1, -, g3, -⟩ := C25_input db lines i .ignoreAll false ht hb hl hlt hn
    obtain ⟨t', f1, -, -, f4⟩ := C25_input db [{ l with text := some b0 }] 0 .ignoreShape false (Text.plain hp) hb0 rfl rfl hn
    have hin : prepareCompInput lines i false .ignoreAll = prepareCompInput [{ l with text := some b0 }] 0 false .ignoreShape := by
      rw [g1, f1, g3 rfl, (f4 rfl).2 rfl]; simp [stripped]
    unfold matchHorizLineWith prepareCompShapesHoriz
    rw [horizShapes_skip, hin]
  rw [h3]
  exact h2.trans h1

theorem escs_last {db : CharDb} (hdb : Sane db) {s v : Str} (h : Text s v) (hv : v = []) (hs : s ≠ []) : ∃ a c, s = a ++ [c] ∧ ¬ Blank db c := by
  induction h with
  | nil => exact absurd rfl hs
  | vis c _ _ _ => simp at hv
  | esc e he h2 ih =>
    rename_i s' v'
    by_cases h0 : s' = []
    · subst h0
      rw [List.append_nil]
      have hb : ∀ f, 0x40 ≤ f → f ≤ 0x7e → ¬ Blank db f := by
        intro f h1 h2 h3
        rcases h3 with h3 | h3
        · omega
        · rw [hdb.ascii_not_blank f (by omega) (by omega)] at h3; simp at h3
      cases he with
      | two c h1 h2 _ => exact ⟨[0x1b], c, rfl, hb c h1 (by omega)⟩
      | csi o params f _ _ h1 h2 => exact ⟨0x1b :: o :: params, f, by simp, hb f h1 h2⟩
    · obtain ⟨a, c, h3, h4⟩ := ih hv h0
      exact ⟨e ++ a, c, by rw [h3, List.append_assoc], h4⟩

theorem east_last {db : CharDb} (hdb : Sane db) {p c s : Str} {x : Nat} (hx : ¬ Blank db x) (hs : Text s []) (h : c = p ++ x :: s) :
    ∃ a z, c = a ++ [z] ∧ ¬ Blank db z := by
  by_cases h0 : s = []
  · exact ⟨p, x, by rw [h, h0], hx⟩
  · obtain ⟨a, z, h1, h2⟩ := escs_last hdb hs rfl h0
    exact ⟨p ++ x :: a, z, by rw [h, h1]; simp, h2⟩

theorem dropTrailing_ends (db : CharDb) {c a : Str} {z : Nat} (h : c = a ++ [z]) (hz : ¬ Blank db z) : dropTrailing db c = c := by
  rw [h]; exact dropTrailing_app db a z [] hz (by simp)

theorem margins_literal {b : Bxs} {x y : Nat} (h : compInputMargins b .literal = .ok (x, y)) :
    b.firstChar[b.indent]? = some x ∧ ∃ q, b.firstChar[b.vis - b.trailing]? = some q ∧ y = b.numChars - q := by
  unfold compInputMargins at h
  rw [if_neg (by decide)] at h
  obtain ⟨p, h1, h⟩ := Res.bind_eq_ok.1 h
  obtain ⟨a, h2, h⟩ := Res.bind_eq_ok.1 h
  obtain ⟨q, h3, h⟩ := Res.bind_eq_ok.1 h
  obtain ⟨t, h4, h⟩ := Res.bind_eq_ok.1 h
  obtain ⟨rfl, rfl⟩ := Prod.mk.inj (Res.ok.inj h)
  have h2' : a = b.vis - b.trailing := by
    unfold Res.sub at h2; split at h2 <;> simp at h2; exact h2.symm
  have h4' : t = b.numChars - q := by
    unfold Res.sub at h4; split at h4 <;> simp at h4; exact h4.symm
  refine ⟨?_, q, ?_, h4'⟩
  · cases hh : b.firstChar[b.indent]? with
    | none => rw [hh] at h1; simp [Res.get] at h1
    | some z => rw [hh] at h1; simp [Res.get] at h1; rw [h1]
  · rw [← h2']
    cases hh : b.firstChar[a]? with
    | none => rw [hh] at h3; simp [Res.get] at h3
    | some z => rw [hh] at h3; simp [Res.get] at h3; rw [h3]

/-- where the sides of a row in colour are found, by comparing all its characters -/
theorem colouredBox_body {db : CharDb} (hdb : Sane db) (hesc : db.ucBlank 0x1b = false) {d e : Design} (hd : InColour db d e) {ind : Nat} {lines : List Line} {ctx : RemoveCtx}
    {body : List LineCtx} {num start : Nat} {west east : List ShapeLine} (he : ctx.emptySide.left = false ∧ ctx.emptySide.right = false)
    (hw : prepareCompShapesVert db e true .literal = .ok west) (hea : prepareCompShapesVert db e false .literal = .ok east)
    (hv : vertLines db lines ctx .literal west east num start = .ok body) {k : Nat} (hk : k < num) {l : Line} {b w x : Bxs} {n n' : ShapeName} {m v : Str}
    (hl : lines[start + k]? = some l) (hlt : l.text = some b) (hb : fromUnicode db b.memory = some b)
    (hpad : e.padding.left ≤ m.length ∧ ∀ c ∈ m.take e.padding.left, Blank db c)
    (hn1 : n ∈ [WNW, W, WSW]) (hn2 : n' ∈ [ENE, E, ESE]) (hpr : Present (e.shape n)) (hpr' : Present (e.shape n'))
    (hwm : w ∈ (e.shape n).lines) (hem : x ∈ (e.shape n').lines)
    (hrow : b.memory = spaces ind ++ w.memory ++ m ++ x.memory) (htb : Text b.memory v) (hn : NarrowBlanks db v) (hm : ∃ u, Text m u) :
    ∃ lc, body[k]? = some lc ∧ keepFrom db e lc b.memory = ind + w.memory.length + e.padding.left ∧ keepTo lc b.memory = ind + w.memory.length + m.length ∧
      lc.westQuality = w.memory.length ∧ lc.eastQuality = x.memory.length := by
  obtain ⟨-, hbody⟩ := C64_body db lines ctx .literal west east (C64_shapes db e true _ west hw).2.2 (C64_shapes db e false _ east hea).2.2 _ _ _ hv
  obtain ⟨s, ln, b', x', y', lc, f1, f2, f3, f4, f5, f6, f7⟩ := hbody k hk
  rw [hl] at f2; obtain rfl := Option.some.inj f2
  rw [hlt] at f3; obtain rfl := Option.some.inj f3
  rw [he.1] at f6; rw [he.2] at f7
  simp only [Bool.false_eq_true, if_false] at f6 f7
  obtain ⟨t, g1, -, -, g4⟩ := C25_input db lines (start + k) .literal false htb hb hl hlt hn
  rw [g1] at f1; obtain rfl := Res.ok.inj f1
  rw [(g4 rfl).2 rfl] at f6 f7
  -- the sides
  obtain ⟨wp, ws, wc, wr, w1, w2, w3, w4, w5⟩ := hd.west n hn1 hpr w hwm
  obtain ⟨xp, xv, xc, xs, x1, x2, x3, x4, x5⟩ := hd.east n' hn2 hpr' x hem
  obtain ⟨xa, xz, x6, x7⟩ := east_last hdb x4 x5 x1
  have hxd : dropTrailing db x.memory = x.memory := dropTrailing_ends db x6 x7
  have hescb : ¬ Blank db 0x1b := by rintro (h | h); · omega
                                     · rw [hesc] at h; simp at h
  have hlw : leadingBlanks db w.memory = wp.length := by
    rw [w1, leading_before db _ _ w2]
    have : leadingBlanks db (ws ++ wc :: wr) = 0 := by
      rcases w3 with rfl | ⟨w3, -⟩
      · simp [leadingBlanks, w5]
      · cases w3 <;> simp [leadingBlanks, hescb]
    omega
  have hsw : ∃ c ∈ w.memory, ¬ Blank db c := ⟨wc, by rw [w1]; simp, w5⟩
  have hsx : ∃ c ∈ x.memory, ¬ Blank db c := ⟨xc, by rw [x1]; simp, x4⟩
  -- margins
  obtain ⟨u, hu⟩ := hm
  have hxt : Text x.memory (xv ++ [xc]) := by rw [x1]; exact x2.append (Text.vis xc x3 x5)
  have hwp : ∀ c ∈ wp, c ≠ 0x1b := fun c hc h => hescb (h ▸ w2 c hc)
  have hpre : Text (spaces ind ++ wp) (spaces ind ++ wp) := (Text.plain (spaces_ne _)).append (Text.plain hwp)
  have hpl : ∀ c ∈ spaces ind ++ wp, c ≠ 0x1b := by
    intro c hc
    rcases List.mem_append.1 hc with hc | hc
    · exact spaces_ne _ c hc
    · exact hwp c hc
  have hmem : b.memory = (spaces ind ++ wp) ++ (ws ++ wc :: (wr ++ m ++ x.memory)) := by rw [hrow, w1]; simp
  obtain ⟨v2, hv2, hv3⟩ := text_plain_append hpl (hmem ▸ htb)
  have hvc : ∃ v3, v2 = wc :: v3 := by
    have : Text (wc :: (wr ++ m ++ x.memory)) v2 := by
      rcases w3 with rfl | ⟨w3, -⟩
      · exact hv3
      · obtain ⟨u2, e1, e2⟩ := text_cancel (by simpa using Text.esc ws w3 Text.nil : Text ws []) hv3
        simp at e1; rw [e1]; exact e2
    obtain ⟨u3, e1, -⟩ := text_plain_append (p := [wc]) (z := wr ++ m ++ x.memory) (by simpa using w4) this
    exact ⟨u3, e1⟩
  obtain ⟨v3, hv4⟩ := hvc
  have hlead : leadingBlanks db v = ind + wp.length := by
    rw [hv2, List.append_assoc, leading_before db _ _ (spaces_blank hdb ind), leading_before db _ _ w2, hv4]
    simp [leadingBlanks, w5, spaces]
  obtain ⟨m1, m2, m3, m4, m5, m6, m7, m8, m9⟩ := C01_metrics db htb hb
  rw [columns_leading db hn] at m7
  have hx' : x' = ind + leadingBlanks db w.memory := by
    obtain ⟨p, q1, q2, -⟩ := firstChar_from db htb hb (leadingBlanks db v)
    have hlv : leadingBlanks db v < v.length := by rw [hlead, hv2, hv4]; simp [spaces]
    rw [if_neg (by omega), ← m7] at q1
    rw [(margins_literal f4).1] at q1
    obtain rfl := Option.some.inj q1
    have h1 := from_at hpre hv3 (backKept_plain hpl) (.inr ⟨ws, wc, _, rfl, w4, w3⟩)
    rw [← hmem, ← hv2, show (spaces ind ++ wp).length = leadingBlanks db v by rw [hlead]; simp [spaces]] at h1
    have h2 := congrArg List.length (from_unique htb q2 h1)
    have h3 := congrArg List.length hmem
    rw [hlw]
    simp only [List.length_drop, List.length_append, List.length_cons] at h2 h3
    simp only [spaces, List.length_replicate] at h3
    omega
  have hy' : y' = 0 := by
    obtain ⟨wv, hwv⟩ := ready_text hd.ready hpr hwm
    have hv' : v = (spaces ind ++ wv ++ u ++ xv) ++ xc :: [] :=
      htb.unique (by rw [hrow]; simpa using (((Text.plain (spaces_ne ind)).append hwv).append hu).append hxt)
    have ht0 := m9 _ _ _ hv' x4 (by simp)
    have hterm := (C02_terminator db htb hb).2.2.1
    rw [← m3] at hterm
    simp only [List.length_nil] at ht0
    obtain ⟨q, h1, h2⟩ := (margins_literal f4).2
    rw [ht0, Nat.sub_zero, hterm] at h1
    obtain rfl := Option.some.inj h1
    omega
  subst hx' hy'
  obtain ⟨v1, v2⟩ := vertShapes_mem hd.ready.good (ct := .literal) rfl hw
  obtain ⟨u1, u2⟩ := vertShapes_mem hd.ready.good (ct := .literal) rfl hea
  simp only [if_true, Bool.false_eq_true, if_false] at v1 v2 u1 u2
  have hdeepW : (e.shape n).isDeepEmpty = false := inColour_deep hdb hd (.inl hn1) hpr
  have hdeepE : (e.shape n').isDeepEmpty = false := inColour_deep hdb hd (.inr hn2) hpr'
  obtain ⟨slw, w1', w2', w3'⟩ := v2 n hn1 hpr w hwm
  obtain ⟨sle, e1', e2', e3'⟩ := u2 n' hn2 hpr' x hem
  have hrow1 : b.memory = spaces ind ++ w.memory ++ (m ++ x.memory) := by rw [hrow]; simp
  have hwb := west_best hdb hsw w1' (by rw [w3']; exact hdeepW) w2' (by
    intro sl hsl
    obtain ⟨n2, i1, i2, b2, i3, i4⟩ := v1 sl hsl
    rw [i4]
    obtain ⟨a1, a2⟩ := hd.westAlike n2 i1 n hn1 i2 hpr b2 i3 w hwm
    obtain ⟨p, s, c, r, z1, -, -, -, z2⟩ := hd.west n2 i1 i2 b2 i3
    exact ⟨⟨c, by rw [z1]; simp, z2⟩, a1, a2⟩) (by rw [← hrow1]; exact f6)
  have heb := east_best (pre := spaces ind ++ w.memory ++ m) hsx e1' (by rw [e3']; exact hdeepE) e2' (by
    intro sl hsl
    obtain ⟨n2, i1, i2, b2, i3, i4⟩ := u1 sl hsl
    rw [i4]
    have a1 := hd.eastAlike n2 i1 n' hn2 i2 hpr' b2 i3 x hem
    obtain ⟨p, v, c, s, z1, -, -, z2, z3⟩ := hd.east n2 i1 i2 b2 i3
    obtain ⟨a, z, z4, z5⟩ := east_last hdb z2 z3 z1
    exact ⟨⟨c, by rw [z1]; simp, z2⟩, a1, by rw [hxd, dropTrailing_ends db z4 z5, a1]⟩) (by rw [hxd, ← hrow]; exact f7)
  obtain ⟨p1, p2, p3⟩ := hwb
  obtain ⟨q1, q2, q3⟩ := heb
  rw [hxd] at q2
  have hwpos : 0 < w.memory.length := by
    obtain ⟨c, hc, -⟩ := hsw; exact List.length_pos_of_mem hc
  have hlen : (spaces ind).length = ind := by simp [spaces]
  have hdrop : b.memory.drop (ind + w.memory.length) = m ++ x.memory := by
    rw [hrow1, List.drop_append_of_le_length (by simp [hlen]), List.drop_of_length_le (by simp [hlen])]; rfl
  refine ⟨lc, f5, ?_, ?_, p3, q2⟩
  · unfold keepFrom
    rw [if_pos (by omega), p2, hdrop, List.take_append_of_le_length hpad.1, leadingBlanks_all db hpad.2, List.length_take, Nat.min_eq_left hpad.1]
  · unfold keepTo
    rw [if_pos q3, q1]
    simp [hlen]; omega

theorem seen_shown {db : CharDb} {l : Line} {b : Bxs} {v : Str} (hl : l.text = some b) (hb : fromUnicode db b.memory = some b)
    (ht : Text b.memory v) (hs : Seen db v) : textIsBlank db l.text = false := by
  have hok : ∀ c ∈ v, ¬ Forbidden db c := by
    intro c hc hf
    have := (C01_rejected_iff db ht).2 ⟨c, hc, hf⟩
    rw [hb] at this; simp at this
  have := blankText_iff ht hok
  rw [hb, ← hl] at this
  cases h : textIsBlank db l.text with
  | false => rfl
  | true =>
    obtain ⟨c, h1, h2, h3, -⟩ := hs
    rcases this.1 h c h1 with h4 | h4
    · exact absurd h4 h2
    · exact absurd h4 h3

theorem ready_narrow {db : CharDb} {d : Design} (hd : ReadyDesign db d) {n : ShapeName} (hp : Present (d.shape n)) {b : Bxs} (hb : b ∈ (d.shape n).lines) :
    ∃ v, Text b.memory v ∧ NarrowBlanks db v := by
  rcases hd.lines n hp b hb with ⟨w, rfl⟩ | ⟨v, h, -, h2⟩
  · exact ⟨_, Text.plain (spaces_ne w), fun c hc => (rowChar_space db c hc).2⟩
  · exact ⟨v, h, h2⟩

/-- every line of a box in colour -/
theorem colouredBox_line {db : CharDb} {d e : Design} (hd : InColour db d e) {ind : Nat} {ms : List Str} {lines : List Line}
    (h : ColouredBox db d e ind ms lines) {l : Line} (hl : l ∈ lines) :
    ∃ b v, l.text = some b ∧ fromUnicode db b.memory = some b ∧ Text b.memory v ∧ NarrowBlanks db v ∧ ∀ c ∈ b.memory, ¬ Forbidden db c := by
  obtain ⟨b, h1, h2⟩ := h.read l hl
  have h5 := h.allowed l hl b h1
  have hedge : ∀ {top ind y}, (∃ row, Text b.memory row ∧ EdgeRow db d top ind y row) →
      ∃ b v, l.text = some b ∧ fromUnicode db b.memory = some b ∧ Text b.memory v ∧ NarrowBlanks db v ∧ ∀ c ∈ b.memory, ¬ Forbidden db c := by
    rintro top ind y ⟨row, ht, he⟩
    exact ⟨b, row, h1, h2, ht, fun c hc => (edgeRow_chars hd.plain he c hc).2, h5⟩
  obtain ⟨y, hy⟩ := List.getElem?_of_mem hl
  have hlt := (List.getElem?_eq_some_iff.1 hy).1
  rw [h.count] at hlt
  by_cases a1 : y < (d.shape NE).height
  · exact hedge (h.top y l b a1 hy h1)
  · by_cases a2 : y < (d.shape NE).height + ms.length
    · have hk : y - (d.shape NE).height < ms.length := by omega
      obtain ⟨n, -, n', -, hp, hp', w, hw, x, hx, hrow⟩ := h.body (y - (d.shape NE).height) l b _ (List.getElem?_eq_getElem hk) (by rw [← hy]; congr 1; omega) h1
      obtain ⟨u, hu, hun⟩ := h.texts _ (List.getElem_mem hk)
      obtain ⟨wv, w1, w2⟩ := ready_narrow hd.ready hp hw
      obtain ⟨xv, x1, x2⟩ := ready_narrow hd.ready hp' hx
      refine ⟨b, _, h1, h2, by rw [hrow]; exact (((Text.plain (spaces_ne ind)).append w1).append hu).append x1, ?_, h5⟩
      intro c hc
      simp only [List.mem_append] at hc
      rcases hc with ((hc | hc) | hc) | hc
      · exact (rowChar_space db c hc).2
      · exact w2 c hc
      · exact hun c hc
      · exact x2 c hc
    · exact hedge (h.bottom (y - ((d.shape NE).height + ms.length)) l b (by omega) (by rw [← hy]; congr 1; omega) h1)

theorem inColour_coloured {db : CharDb} {d e : Design} (hd : InColour db d e) : designColoured e = true := by
  obtain ⟨n, hp, b, hb, hc⟩ := hd.colour
  have hinv : 0 < b.invis := by
    rcases hd.ready.lines n hp b hb with ⟨w, rfl⟩ | ⟨v, e1, e2, -⟩
    · exact absurd rfl (spaces_ne w _ hc)
    · exact (C27_colour db _ _ b e1 e2).2 (fun h => absurd rfl (text_vis_ne e1 _ (by rw [← h]; exact hc)))
  unfold designColoured
  rw [List.any_eq_true]
  refine ⟨n, by cases n <;> decide, ?_⟩
  simp only [Bool.and_eq_true, Bool.not_eq_true', List.any_eq_true, decide_eq_true_eq]
  refine ⟨(present_iff _).2 hp, b, ?_, hinv⟩
  rw [List.take_of_length_le (by rw [(hd.ready.good.shapes n hp).height]; exact Nat.le_refl _)]
  exact hb

/-- a box in colour in which no colours are left is a plain box -/
theorem colouredBox_plain {db : CharDb} (hdb : Sane db) {d e : Design} (hd : InColour db d e) {ind : Nat} {ms : List Str} {lines : List Line}
    (h : ColouredBox db d e ind ms lines) (hc : inputColoured lines = false) : BoxAround db d ind ms lines := by
  have hplain : ∀ l ∈ lines, ∀ b, l.text = some b → ∀ c ∈ b.memory, c ≠ 0x1b := by
    intro l hl b hb
    obtain ⟨b', v, h1, h2, h3, -⟩ := colouredBox_line hd h hl
    rw [hb] at h1; obtain rfl := Option.some.inj h1
    have := mono_line hc hl hb h2 h3
    rw [this]; exact text_vis_ne h3
  have hline : ∀ n, Present (e.shape n) → ∀ w ∈ (e.shape n).lines, (∀ c ∈ w.memory, c ≠ 0x1b) → ∃ w' ∈ (d.shape n).lines, w'.memory = w.memory := by
    intro n hp w hw hpl
    obtain ⟨i, hi⟩ := List.getElem?_of_mem hw
    have hlt : i < (d.shape n).lines.length := by rw [← (hd.same.shapes n).count]; exact (List.getElem?_eq_some_iff.1 hi).1
    obtain ⟨⟨v, s1, s2⟩, -⟩ := (hd.same.shapes n).lines i _ w (List.getElem?_eq_getElem hlt) hi
    refine ⟨_, List.getElem_mem hlt, ?_⟩
    rw [(Text.plain hpl).unique s2]
    exact (Text.plain (hd.plain.plain n (hd.present.1 hp) _ (List.getElem_mem hlt))).unique s1
  have hrows : ∀ (k : Nat) m, ms[k]? = some m → ∃ l b, lines[(d.shape NE).height + k]? = some l ∧ l.text = some b ∧ l ∈ lines := by
    intro k m hm
    have := (List.getElem?_eq_some_iff.1 hm).1
    have hc := h.count
    have hlt : (d.shape NE).height + k < lines.length := by omega
    obtain ⟨b, hb, -⟩ := h.read _ (List.getElem_mem hlt)
    exact ⟨_, b, List.getElem?_eq_getElem hlt, hb, List.getElem_mem hlt⟩
  have hmc : ∀ m ∈ ms, ∃ l b, l ∈ lines ∧ l.text = some b ∧ ∀ c ∈ m, c ∈ b.memory := by
    intro m hm
    obtain ⟨k, hk⟩ := List.getElem?_of_mem hm
    obtain ⟨l, b, h1, h2, h3⟩ := hrows k m hk
    obtain ⟨n, -, n', -, -, -, w, -, x, -, hrow⟩ := h.body k l b m hk h1 h2
    exact ⟨l, b, h3, h2, fun c hc => by rw [hrow]; simp [hc]⟩
  have hpd : e.padding = d.padding := hd.same.padding
  have hedge : ∀ {top y b row}, Text b row → (∀ c ∈ b, c ≠ 0x1b) → EdgeRow db d top ind y row → EdgeRow db d top ind y b := by
    intro top y b row ht hp he
    rw [(Text.plain hp).unique ht]; exact he
  refine ⟨h.count, h.read, ?_, ?_, ?_, by rw [← hpd]; exact h.padded, h.texts, ?_, ?_⟩
  · intro y l b hy hl hb
    obtain ⟨row, h1, h2⟩ := h.top y l b hy hl hb
    exact hedge h1 (hplain l (List.mem_of_getElem? hl) b hb) h2
  · intro k l b m hm hl hb
    obtain ⟨n, hn, n', hn', hp, hp', w, hw, x, hx, hrow⟩ := h.body k l b m hm hl hb
    have hpl := hplain l (List.mem_of_getElem? hl) b hb
    obtain ⟨w', hw', ew⟩ := hline n hp w hw (fun c hc => hpl c (by rw [hrow]; simp [hc]))
    obtain ⟨x', hx', ex⟩ := hline n' hp' x hx (fun c hc => hpl c (by rw [hrow]; simp [hc]))
    refine ⟨n, hn, n', hn', hd.present.1 hp, hd.present.1 hp', w', hw', x', hx', ?_⟩
    rw [ew, ex, ← hrow]
    obtain ⟨p, v, c, s, z1, -, -, z2, z3⟩ := hd.east n' hn' hp' x hx
    obtain ⟨a, z, z4, z5⟩ := east_last hdb z2 z3 z1
    exact (dropTrailing_ends db (a := spaces ind ++ w.memory ++ m ++ a) (by rw [hrow, z4]; simp) z5).symm
  · intro y l b hy hl hb
    obtain ⟨row, h1, h2⟩ := h.bottom y l b hy hl hb
    exact hedge h1 (hplain l (List.mem_of_getElem? hl) b hb) h2
  · intro m hm c hc
    obtain ⟨l, b, h1, h2, h3⟩ := hmc m hm
    exact h.allowed l h1 b h2 c (h3 c hc)
  · intro m hm
    obtain ⟨l, b, h1, h2, h3⟩ := hmc m hm
    have hpl : ∀ c ∈ m, c ≠ 0x1b := fun c hc => hplain l h1 b h2 c (h3 c hc)
    exact ⟨frontKept_plain (fun c hc => hpl c (List.mem_of_mem_drop hc)), backKept_plain hpl⟩

/-- the line left of a line of the body, compared as it is -/
theorem removeVerticalLine_literal {db : CharDb} (hdb : Sane db) {opt : Opt} {d : Design} {n : Nat} {line : Line} {lc : LineCtx} {b : Bxs}
    {P K Q k : Str} (hl : line.text = some b) (hb : fromUnicode db b.memory = some b) (hm : b.memory = P ++ K ++ Q)
    (hK : Text K k) (hcl : ∀ x ∈ K, ¬ Forbidden db x)
    (hfrom : keepFrom db d lc b.memory = P.length) (hto : keepTo lc b.memory = P.length + K.length) :
    removeVerticalLine db opt d n .literal line lc = .ok { line with text := fromUnicode db (spaces (restored opt n) ++ K) } := by
  have hn := fromUnicode_numChars hb
  have hs : calculateStartIdx db d .literal b lc = .ok P.length := by
    rw [calculateStartIdx_eq (v := b.memory) (by rw [maxChars_literal rfl, hn]) (fun x y => orgIsNotBlank_literal rfl x y), hfrom]; rfl
  have he : calculateEndIdx .literal b lc = .ok (P.length + K.length) := by
    rw [calculateEndIdx_eq (v := b.memory) (by rw [maxChars_literal rfl, hn]), hto]; rfl
  have hcut : (b.memory.take (P.length + K.length)).drop P.length = K := by
    rw [hm, List.take_append_of_le_length (by simp), List.take_of_length_le (by simp), List.drop_left]
  unfold removeVerticalLine
  rw [hl]
  simp only [Res.get_some, Res.ok_bind, hs, he]
  have hsub : b.substr db P.length (P.length + K.length) = fromUnicode db K := by
    conv => rhs; rw [← hcut]
    unfold Bxs.substr
    dsimp only
    rw [hn, clamp_take, clamp_drop, if_neg (by split <;> split <;> omega)]
  obtain ⟨t, ht⟩ := analysed db hK (fun x hx => hcl x (text_mem hK x hx))
  rw [hsub, ht]
  unfold restored
  split
  · rw [show spaces n = List.replicate n 0x20 from rfl, C05_prepend db hdb hK ht n]; rfl
  · rw [show spaces 0 = [] from rfl, List.nil_append, ht]

theorem sum_enough {a q : Nat} {l : List LineCtx} (h : ∀ x ∈ l, a ≤ x.westQuality ∧ q ≤ x.eastQuality) :
    (a + q) * l.length ≤ (l.map (fun x => x.eastQuality + x.westQuality)).sum := by
  induction l with
  | nil => simp
  | cons x r ih =>
    have h1 := ih (fun y hy => h y (by simp [hy]))
    have h2 := h x (by simp)
    simp only [List.length_cons, List.map_cons, List.sum_cons, Nat.mul_succ]
    omega

theorem colouredBox_removed (db : CharDb) (hdb : Sane db) (hesc : db.ucBlank 0x1b = false) (opt : Opt) (d0 d : Design) (hd : InColour db d0 d) (i : Input) (ind : Nat)
    (ms ts us : List Str) (hbox : ColouredBox db d0 d ind ms i.lines) (hcol : inputColoured i.lines = true)
    (hts : ts = ms.map (fun m => spaces (restored opt i.indent) ++ m.drop d.padding.left))
    (hlu : us.length = ts.length) (hus : ∀ (x : Nat) t u, ts[x]? = some t → us[x]? = some u → Text t u) :
    ∃ j k k', removeBox db opt d i = .ok j ∧ k + k' ≤ ts.length ∧
      (if opt.killblank ≠ 0 ∨ opt.mend ≠ 0 then
        BlankLinesDropped db (maxRemovable opt d.padding.top) us k ∧ BlankLinesDropped db (maxRemovable opt d.padding.bottom) (us.drop k).reverse k'
       else k = 0 ∧ k' = 0) ∧
      j.lines.length + k + k' = ts.length ∧ j.finalNewline = i.finalNewline ∧
      ∀ (x : Nat) l, j.lines[x]? = some l → ∃ t l0, ts[k + x]? = some t ∧ i.lines[(d.shape NE).height + k + x]? = some l0 ∧
        l = { l0 with text := fromUnicode db t } := by
  have hrc := hd.plain
  have hin : ReadyInput db i.lines := by
    intro l hl
    obtain ⟨b, v, h1, h2, h3, h4, -⟩ := colouredBox_line hd hbox hl
    exact ⟨b, v, h1, h2, h3, h4⟩
  have hcl : CleanInput db i.lines := by
    intro l hl b hb
    exact hbox.allowed l hl b hb
  have hside : determineEmptySides d = ⟨false, false, false, false⟩ := by
    rw [recoloured_sides hdb hrc.ready hd.ready hd.same, side_seen hdb hrc]
  have hmono : designIsMono d = .ok false := by
    obtain ⟨m, hm⟩ := designIsMono_total hd.ready
    rw [hm, C27_design _ _ hm, inColour_coloured hd]; rfl
  have hmono0 : designIsMono d0 = .ok true := by
    obtain ⟨m, hm⟩ := designIsMono_total hrc.ready
    rw [hm, C27_design _ _ hm, design_mono hrc]; rfl
  obtain ⟨q, hq, htot⟩ := C23_total db hdb opt d hd.ready i hin hcl
  have hcount := hbox.count
  rw [← (hd.same.shapes NE).height, ← (hd.same.shapes SE).height] at hcount
  have hpNE := hd.ready.good.corner NE (by decide)
  have hpSE := hd.ready.good.corner SE (by decide)
  have hNE : 0 < (d.shape NE).height := hpNE.2.2
  have hSE : 0 < (d.shape SE).height := hpSE.2.2
  have hline : ∀ x, x < i.lines.length → ∃ l b v, i.lines[x]? = some l ∧ l.text = some b ∧ fromUnicode db b.memory = some b ∧
      Text b.memory v ∧ NarrowBlanks db v ∧ ∀ c ∈ b.memory, ¬ Forbidden db c := by
    intro x hx
    obtain ⟨b, v, h1, h2, h3⟩ := colouredBox_line hd hbox (List.getElem_mem hx)
    exact ⟨_, b, v, List.getElem?_eq_getElem hx, h1, h2, h3⟩
  have hfirst : ∀ l, i.lines[0]? = some l → textIsBlank db l.text = false := by
    intro l hl
    obtain ⟨l', b, v, e1, e2, e3, -⟩ := hline 0 (by omega)
    rw [hl] at e1; obtain rfl := Option.some.inj e1
    obtain ⟨row, ht, he⟩ := hbox.top 0 l b (by rw [← (hd.same.shapes NE).height]; exact hNE) hl e2
    exact seen_shown e2 e3 ht (edgeRow_seen hrc (top := true) (by simpa [← (hd.same.shapes NE).height] using hNE) he)
  have hlast : ∀ l, i.lines[i.lines.length - 1]? = some l → textIsBlank db l.text = false := by
    intro l hl
    obtain ⟨l', b, v, e1, e2, e3, -⟩ := hline (i.lines.length - 1) (by omega)
    rw [hl] at e1; obtain rfl := Option.some.inj e1
    obtain ⟨row, ht, he⟩ : ∃ row, Text b.memory row ∧ EdgeRow db d0 false ind ((d.shape SE).height - 1) row :=
      hbox.bottom _ l b (by rw [← (hd.same.shapes SE).height]; omega) (by rw [← (hd.same.shapes NE).height, ← hl]; congr 1; omega) e2
    exact seen_shown e2 e3 ht (edgeRow_seen hrc (top := false) (by simp [← (hd.same.shapes SE).height]; omega) he)
  obtain ⟨ctx, rfl⟩ : ∃ ctx, q = some ctx := by
    cases q with
    | some ctx => exact ⟨ctx, rfl⟩
    | none =>
      have h1 := findBox_none hq
      obtain ⟨l, b, v, e1, -⟩ := hline 0 (by omega)
      have h2 := (findFirstLine_spec db i.lines).1 0 l (by omega) e1
      rw [hfirst l e1] at h2; simp at h2
  obtain ⟨a1, a2, a3, a4, a5, a6, a7, a8, a9, a10, a11⟩ := findBox_spec hq
  obtain ⟨l1, l2, l3, l4⟩ := findLastLine_spec db i.lines a1
  obtain ⟨b1, b2, b3, ⟨-, b4⟩, ⟨-, b5⟩, b6, b7, b8, b9⟩ := C64_box db d i ctx hq
  rw [hside] at b3 a7 a8
  rw [inColour_coloured hd] at b2; rw [hcol] at b1
  have hts0 : ctx.topStart = 0 := by
    refine Classical.byContradiction fun h => ?_
    obtain ⟨l, b, v, e1, -⟩ := hline 0 (by omega)
    have := b4 0 l (by omega) e1
    rw [hfirst l e1] at this; simp at this
  have hbe : ctx.bottomEnd = i.lines.length := by
    refine Classical.byContradiction fun h => ?_
    obtain ⟨l, b, v, e1, -⟩ := hline (i.lines.length - 1) (by omega)
    have := b5 (i.lines.length - 1) l (by omega) e1
    rw [hlast l e1] at this; simp at this
  have hrec : ∀ (top : Bool) x y, x < i.lines.length → y < (d.shape (if top then NE else SE)).height →
      (∀ l b, i.lines[x]? = some l → l.text = some b → ∃ row, Text b.memory row ∧ EdgeRow db d0 top ind y row) → Recognised db d i.lines ctx top x y := by
    intro top x y hx hy hr
    obtain ⟨l, b, v, e1, e2, e3, -⟩ := hline x hx
    obtain ⟨row, ht, he⟩ := hr l b e1 e2
    exact ⟨.ignoreAll, by rw [b1, b2]; rfl, edge_colour hdb hd hmono hmono0 e1 e2 e3 (by rw [b3]; exact ⟨rfl, rfl⟩) (by rw [← (hd.same.shapes _).height]; exact hy) ht he⟩
  rw [b3] at b6 b7
  simp only [Bool.false_eq_true, if_false] at b6 b7
  have hte : ctx.topEnd = (d.shape NE).height := by
    obtain ⟨k, k1, k2, -, k4⟩ := b6
    rcases k4 with h | h | h
    · omega
    · omega
    · refine Classical.byContradiction fun hne => h k (by omega) ?_
      refine hrec true _ k (by omega) (by simp; omega) ?_
      intro l b e1 e2
      exact hbox.top k l b (by rw [← (hd.same.shapes NE).height]; omega) (by rw [← e1]; congr 1; omega) e2
  have hbs : ctx.bottomStart = (d.shape NE).height + ms.length := by
    obtain ⟨k, k1, k2, -, k4⟩ := b7
    rcases k4 with h | h | h
    · omega
    · omega
    · refine Classical.byContradiction fun hne => h ((d.shape SE).height - k - 1) (by omega) ?_
      refine hrec false _ _ (by omega) (by simp; omega) ?_
      intro l b e1 e2
      exact hbox.bottom _ l b (by rw [← (hd.same.shapes SE).height]; omega) (by rw [← (hd.same.shapes NE).height]; rw [← e1]; congr 1; omega) e2
  have hnum : ctx.bodyNum = ms.length := by omega
  -- what is recorded for the body
  have hlitbody : ∀ body', BodyWith db d i.lines ctx .literal body' → body'.length = ms.length ∧ ∀ (x : Nat) m, ms[x]? = some m →
      ∃ l b v lc, i.lines[(d.shape NE).height + x]? = some l ∧ l.text = some b ∧
        Text b.memory v ∧ body'[x]? = some lc ∧ (d.shape NW).width ≤ lc.westQuality ∧ (d.shape NE).width ≤ lc.eastQuality ∧
        keepFrom db d lc b.memory ≤ keepTo lc b.memory ∧ ∀ n, removeVerticalLine db opt d n .literal l lc =
          .ok { l with text := fromUnicode db (spaces (restored opt n) ++ m.drop d.padding.left) } := by
    rintro body' ⟨west, east, w2, w3, w4⟩
    rw [b3] at w2 w3
    simp only [Bool.false_eq_true, if_false] at w2 w3
    refine ⟨by have := (C64_body db i.lines ctx .literal west east (C64_shapes db d true _ west w2).2.2 (C64_shapes db d false _ east w3).2.2 _ _ _ w4).1; omega, ?_⟩
    intro x m hx
    have hxl := (List.getElem?_eq_some_iff.1 hx).1
    obtain ⟨l, b, v, e1, e2, e3, e4, e5, e6⟩ := hline ((d.shape NE).height + x) (by omega)
    have hmm := List.mem_of_getElem? hx
    obtain ⟨u, hu, hun⟩ := hbox.texts m hmm
    obtain ⟨hp1, hp2⟩ := hbox.padded m hmm
    obtain ⟨n, r1, n', r2, r3, r4, w, r5, y, r6, r7⟩ := hbox.body x l b m hx (by rw [← (hd.same.shapes NE).height]; exact e1) e2
    obtain ⟨lc, f1, f2, f3, f4, f5⟩ := colouredBox_body hdb hesc hd (by rw [b3]; exact ⟨rfl, rfl⟩) w2 w3 w4 (k := x) (by omega) (by rw [hte]; exact e1) e2 e3
      ⟨hp1, fun c hc => (hp2 c hc).1⟩ r1 r2 r3 r4 r5 r6 r7 e4 e5 ⟨u, hu⟩
    have hroom1 := hd.room n (by revert r1; cases n <;> decide) r3 w r5
    have hroom2 := hd.room n' (by revert r2; cases n' <;> decide) r4 y r6
    rw [hd.ready.good.west n (by revert r1; cases n <;> decide) r3] at hroom1
    rw [hd.ready.good.east n' (by revert r2; cases n' <;> decide) r4] at hroom2
    refine ⟨l, b, v, lc, e1, e2, e4, f1, by omega, by omega, by rw [f2, f3]; omega, ?_⟩
    intro nn
    have hm0 : m = m.take d.padding.left ++ m.drop d.padding.left := (List.take_append_drop _ _).symm
    obtain ⟨u', hu', hu''⟩ := text_plain_append (p := m.take d.padding.left) (z := m.drop d.padding.left) (fun c hc => (hp2 c hc).2) (by rw [← hm0]; exact hu)
    have hl0 : (m.take d.padding.left).length = d.padding.left := by rw [List.length_take]; omega
    have hM : b.memory = (spaces ind ++ w.memory ++ m.take d.padding.left) ++ m.drop d.padding.left ++ y.memory := by
      rw [r7]; conv => lhs; rw [hm0]
      simp
    have hPl : (spaces ind ++ w.memory ++ m.take d.padding.left).length = ind + w.memory.length + d.padding.left := by
      simp only [List.length_append, hl0]; simp [spaces]
    exact removeVerticalLine_literal hdb e2 e3 hM hu'' (fun c hc => e6 c (by rw [hM]; simp only [List.mem_append]; exact Or.inl (Or.inr hc))) (by rw [f2, hPl]) (by rw [f3, hPl, List.length_drop]; omega)
  have hlit : 0 < ms.length → ctx.compType = .literal ∧ BodyWith db d i.lines ctx .literal ctx.body := by
    intro hpos
    rw [if_neg (by rw [b3]; simp; omega)] at b9
    obtain ⟨w1, w2, before, after, w3, w4, -⟩ := b9
    cases before with
    | nil =>
      have : ctx.compType = .literal := by
        have := congrArg List.head? w3
        simpa [compTypes] using this.symm
      rw [this] at w2; exact ⟨this, w2⟩
    | cons c0 before =>
      have h0 : c0 = .literal := by
        have := congrArg List.head? w3
        simpa [compTypes] using this.symm
      obtain ⟨body', h1, h2⟩ := w4 c0 (by simp) (by rw [h0, b1, b2]; rfl)
      rw [h0] at h1
      obtain ⟨h3, h4⟩ := hlitbody body' h1
      have h5 := sum_enough (a := (d.shape NW).width) (q := (d.shape NE).width) (l := body') (by
        intro x hx
        obtain ⟨k, hk⟩ := List.getElem?_of_mem hx
        have hkl := (List.getElem?_eq_some_iff.1 hk).1
        obtain ⟨l, b, v, lc, -, -, -, g4, g5, g6, -⟩ := h4 k _ (List.getElem?_eq_getElem (by omega))
        rw [hk] at g4; obtain rfl := Option.some.inj g4
        exact ⟨g5, g6⟩)
      have h6 : 0 < ((d.shape NW).width + (d.shape NE).width) * body'.length := Nat.mul_pos (by have := hpNE.2.1; omega) (by omega)
      unfold sufficientBodyQuality at h2
      rw [b3] at h2
      simp at h2
      have h7 := h2.2 (by simpa using h6)
      omega
  have hbody : ∀ (x : Nat) m, ms[x]? = some m → ∃ l b v lc, i.lines[(d.shape NE).height + x]? = some l ∧ l.text = some b ∧
      Text b.memory v ∧ ctx.body[x]? = some lc ∧ ctx.compType = .literal ∧
      keepFrom db d lc b.memory ≤ keepTo lc b.memory ∧ ∀ n, removeVerticalLine db opt d n ctx.compType l lc =
        .ok { l with text := fromUnicode db (spaces (restored opt n) ++ m.drop d.padding.left) } := by
    intro x m hx
    obtain ⟨h1, h2⟩ := hlit (by have := (List.getElem?_eq_some_iff.1 hx).1; omega)
    obtain ⟨l, b, v, lc, g1, g2, g3, g4, -, -, g7, g8⟩ := (hlitbody _ h2).2 x m hx
    exact ⟨l, b, v, lc, g1, g2, g3, g4, h1, g7, by rw [h1]; exact g8⟩
  obtain ⟨j, hj⟩ := htot ctx rfl (by omega) (by
    intro k l lc b v h1 h2 h3 h4
    have hk := (List.getElem?_eq_some_iff.1 h2).1
    obtain ⟨l', b', v', lc', e1, e2, e3, e5, e4, e6, -⟩ := hbody k _ (List.getElem?_eq_getElem (by omega))
    rw [hte, e1] at h1; obtain rfl := Option.some.inj h1
    rw [e2] at h3; obtain rfl := Option.some.inj h3
    rw [e5] at h2; obtain rfl := Option.some.inj h2
    obtain rfl := e3.unique h4
    rw [e4]; exact e6)
  obtain ⟨-, -, -, -, -, -, -, -, body, mid, mid', k, k', n, g1, g2, g3, g4, g5, g6, g7, g8, g9, g10, g11, -⟩ :=
    C23_structure db opt d i j ctx hq (by omega) hj
  rw [hside] at g7
  obtain rfl := g7.closed rfl
  have hlen : ts.length = ms.length := by rw [hts]; simp
  have hbl : ∀ x, x < ms.length → ∃ m l, ms[x]? = some m ∧ i.lines[(d.shape NE).height + x]? = some l ∧
      ts[x]? = some (spaces (restored opt i.indent) ++ m.drop d.padding.left) ∧
      body[x]? = some { l with text := fromUnicode db (spaces (restored opt i.indent) ++ m.drop d.padding.left) } := by
    intro x hx
    obtain ⟨l, b, v, lc, e1, e2, -, e5, -, -, e7⟩ := hbody x _ (List.getElem?_eq_getElem hx)
    have hbx : x < body.length := by omega
    have h1 := g3 x l lc _ (by rw [hte]; exact e1) e5 (List.getElem?_eq_getElem hbx)
    rw [e7] at h1
    refine ⟨_, l, List.getElem?_eq_getElem hx, e1, by rw [hts]; simp [List.getElem?_eq_getElem hx], ?_⟩
    rw [List.getElem?_eq_getElem hbx]; exact congrArg some (Res.ok.inj h1).symm
  have hbt : ∀ x : Nat, body[x]?.map Line.text = ts[x]?.map (fromUnicode db) := by
    intro x
    by_cases hx : x < ms.length
    · obtain ⟨m, l, h1, h2, h3, h4⟩ := hbl x hx
      rw [h3, h4]; rfl
    · rw [List.getElem?_eq_none (by omega), List.getElem?_eq_none (by omega)]; rfl
  have htsok : ∀ (x : Nat) t u, ts[x]? = some t → us[x]? = some u → Text t u ∧ ∀ c ∈ u, ¬ Forbidden db c := by
    intro x t u hx hxu
    have htu := hus x t u hx hxu
    refine ⟨htu, ?_⟩
    intro c hc
    have hct : c ∈ t := text_mem htu c hc
    have hxl := (List.getElem?_eq_some_iff.1 hx).1
    obtain ⟨m, l, h1, h2, h3, h4⟩ := hbl x (by omega)
    rw [hx] at h3; obtain rfl := Option.some.inj h3
    rcases List.mem_append.1 hct with hc | hc
    · rw [spaces, List.mem_replicate] at hc
      obtain ⟨-, rfl⟩ := hc
      exact fun hf => absurd hf.1 (by rw [hdb.space_ok]; simp)
    · obtain ⟨l', b', v', e1, e2, e3, e4, e5, e6⟩ := hline ((d.shape NE).height + x) (by omega)
      obtain ⟨n, -, n', -, -, -, w, -, y, -, r7⟩ := hbox.body x l' b' m h1 (by rw [← (hd.same.shapes NE).height]; exact e1) e2
      exact e6 c (by rw [r7]; simp [List.mem_of_mem_drop hc])
  have hmid : mid' = mid := by
    apply List.ext_getElem?
    intro x
    by_cases hx : x < mid.length
    · rw [List.getElem?_eq_getElem hx, List.getElem?_eq_getElem (by omega : x < mid'.length)]
      exact congrArg some ((g9 x _ _ (List.getElem?_eq_getElem hx) (List.getElem?_eq_getElem (by omega))).1 rfl)
    · rw [List.getElem?_eq_none (by omega), List.getElem?_eq_none (by omega)]
  have hjl : j.lines = mid := by
    rw [g10, hts0, hbe, hmid]; simp
  refine ⟨j, k, k', hj, by omega, ?_, ?_, g11, ?_⟩
  · split
    · rename_i hk
      rw [if_pos hk] at g6
      refine ⟨blanksDropped_texts hbt (by omega) hlu htsok g6.1,
        blanksDropped_texts (body := (body.drop k).reverse) (ts := (ts.drop k).reverse) ?_ (by simp; omega) (by simp; omega) ?_ g6.2⟩
      · intro x
        have hext : (body.map Line.text) = ts.map (fromUnicode db) := by
          apply List.ext_getElem?
          intro y
          rw [List.getElem?_map, List.getElem?_map]; exact hbt y
        have : ((body.drop k).reverse).map Line.text = ((ts.drop k).reverse).map (fromUnicode db) := by
          rw [List.map_reverse, List.map_reverse, List.map_drop, List.map_drop, hext]
        have := congrArg (fun l => l[x]?) this
        simpa only [List.getElem?_map] using this
      · intro x t u hx hxu
        have hlt := (List.getElem?_eq_some_iff.1 hx).1
        have hlt' := (List.getElem?_eq_some_iff.1 hxu).1
        rw [List.getElem?_reverse (by simpa using hlt), List.getElem?_drop] at hx
        rw [List.getElem?_reverse (by simpa using hlt'), List.getElem?_drop] at hxu
        rw [show (us.drop k).length = (ts.drop k).length by simp; omega] at hxu
        exact htsok _ t u hx hxu
    · rename_i hk
      rw [if_neg hk] at g6
      exact g6
  · rw [hjl, g5]; simp; omega
  · intro x l hl
    rw [hjl, g5, List.getElem?_drop, List.getElem?_take] at hl
    split at hl
    · rename_i hlt
      obtain ⟨m, l0, h1, h2, h3, h4⟩ := hbl (k + x) (by omega)
      rw [h4] at hl
      exact ⟨_, l0, h3, by rw [← h2]; congr 1; omega, (Option.some.inj hl).symm⟩
    · simp at hl

end Boxes
