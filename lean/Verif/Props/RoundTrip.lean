import Verif.Lemmas.RoundTrip

/-!
# Removing a box that was drawn (C70)
-/
namespace Boxes
open Spec ShapeName
set_option linter.unusedSimpArgs false

theorem dropTrailing_mem {db : CharDb} {v : Str} {c : Nat} (h : c ∈ dropTrailing db v) : c ∈ v := by
  unfold dropTrailing at h
  rw [List.mem_reverse] at h
  exact List.mem_reverse.1 ((List.dropWhile_sublist _).mem h)

/-- a character that a row may contain: no escape, and if blank one column wide -/
def RowChar (db : CharDb) (c : Nat) : Prop := c ≠ 0x1b ∧ (Blank db c → Spec.width db c = 1)

theorem rowChar_space (db : CharDb) {n : Nat} : ∀ c ∈ spaces n, RowChar db c := by
  intro c hc
  rw [spaces, List.mem_replicate] at hc
  obtain ⟨-, rfl⟩ := hc
  exact ⟨by decide, fun _ => by simp [Spec.width]⟩

theorem rowChar_shape {db : CharDb} {d : Design} (hd : Recognisable db d) {n : ShapeName} (hp : Present (d.shape n)) {b : Bxs}
    (hb : b ∈ (d.shape n).lines) : ∀ c ∈ b.memory, RowChar db c := by
  intro c hc
  have h1 := hd.plain n hp b hb
  refine ⟨h1 c hc, ?_⟩
  rcases hd.ready.lines n hp b hb with ⟨w, rfl⟩ | ⟨v, e1, e2, e3⟩
  · have : c ∈ spaces w := hc
    exact (rowChar_space db c this).2
  · obtain rfl := (Spec.Text.plain h1).unique e1
    exact e3 c hc

theorem rowChar_line {db : CharDb} {d : Design} (hd : Recognisable db d) {n : ShapeName} (hp : Present (d.shape n)) {y : Nat} :
    ∀ c ∈ lineText (d.shape n) y, RowChar db c := by
  intro c hc
  unfold lineText at hc
  cases hl : (d.shape n).lines[y]? with
  | none => rw [hl] at hc; simp at hc
  | some b => rw [hl] at hc; exact rowChar_shape hd hp (List.mem_of_getElem? hl) c (by simpa using hc)

theorem times_mem {α : Type} {n : Nat} {l : List α} {x : α} (h : x ∈ times n l) : 0 < n ∧ x ∈ l := by
  unfold times at h
  rw [List.mem_flatten] at h
  obtain ⟨l', h1, h2⟩ := h
  rw [List.mem_replicate] at h1
  exact ⟨by omega, h1.2 ▸ h2⟩

theorem edgeRow_chars {db : CharDb} {d : Design} (hd : Recognisable db d) {top : Bool} {ind y : Nat} {row : Str} (h : EdgeRow db d top ind y row) :
    ∀ c ∈ row, RowChar db c := by
  obtain ⟨a, b, c, ha, hb, hc, rfl⟩ := h
  intro x hx
  have hx := dropTrailing_mem hx
  have hshape : ∀ n m, OccursIn (d.shape n) m → x ∈ times m (lineText (d.shape n) y) → RowChar db x := by
    intro n m ho hm
    obtain ⟨h1, h2⟩ := times_mem hm
    have hp : Present (d.shape n) := Classical.byContradiction fun h => by have := ho.1 h; omega
    exact rowChar_line hd hp x h2
  have hcorner : ∀ n ∈ [NW, NE, SE, SW], x ∈ lineText (d.shape n) y → RowChar db x :=
    fun n hn hm => rowChar_line hd (hd.ready.good.corner n hn) x hm
  simp only [List.mem_append] at hx
  rcases hx with ((((hx | hx) | hx) | hx) | hx) | hx
  · exact rowChar_space db x hx
  · exact hcorner _ (by cases top <;> simp) hx
  · exact hshape _ _ ha hx
  · exact hshape _ _ hb hx
  · exact hshape _ _ hc hx
  · exact hcorner _ (by cases top <;> simp) hx

/-- the parts of a row of the body -/
theorem bodyRow_parts {db : CharDb} {d : Design} (hd : Recognisable db d) {ind : Nat} {m u row : Str} (hm : Text m u) (hn : NarrowBlanks db u)
    (h : BodyRow db d ind m row) : ∃ n ∈ [WNW, W, WSW], ∃ n' ∈ [ENE, E, ESE], Present (d.shape n) ∧ Present (d.shape n') ∧
      ∃ b ∈ (d.shape n).lines, ∃ b' ∈ (d.shape n').lines, row = spaces ind ++ b.memory ++ m ++ dropTrailing db b'.memory ∧
      (∀ c ∈ spaces ind ++ b.memory, RowChar db c) ∧ (∀ c ∈ dropTrailing db b'.memory, RowChar db c) ∧
      Text row (spaces ind ++ b.memory ++ u ++ dropTrailing db b'.memory) ∧ NarrowBlanks db (spaces ind ++ b.memory ++ u ++ dropTrailing db b'.memory) := by
  obtain ⟨n, h1, n', h2, hp, hp', b, hb, b', hb', rfl⟩ := h
  have e1 : ∀ c ∈ spaces ind ++ b.memory, RowChar db c := by
    intro c hc
    rcases List.mem_append.1 hc with hc | hc
    · exact rowChar_space db c hc
    · exact rowChar_shape hd hp hb c hc
  have e2 : ∀ c ∈ dropTrailing db b'.memory, RowChar db c := fun c hc => rowChar_shape hd hp' hb' c (dropTrailing_mem hc)
  have e3 := dropTrailing_row db (spaces ind ++ b.memory ++ m) _ (seen_nonblank (hd.east n' h2 hp' b' hb'))
  refine ⟨n, h1, n', h2, hp, hp', b, hb, b', hb', e3, e1, e2, ?_, ?_⟩
  · rw [e3]
    exact ((Spec.Text.plain (fun c hc => (e1 c hc).1)).append hm).append (Spec.Text.plain (fun c hc => (e2 c hc).1))
  · intro c hc hbl
    rcases List.mem_append.1 hc with hc | hc
    · rcases List.mem_append.1 hc with hc | hc
      · exact (e1 c hc).2 hbl
      · exact hn c hc hbl
    · exact (e2 c hc).2 hbl

theorem edgeRow_seen {db : CharDb} {d : Design} (hd : Recognisable db d) {top : Bool} {ind y : Nat} {row : Str}
    (hy : y < (d.shape (if top then NE else SE)).height) (h : EdgeRow db d top ind y row) : Seen db row := by
  obtain ⟨a, b, c, ha, hb, hc, rfl⟩ := h
  apply seen_drop
  have hpr : Present (d.shape (if top then NE else SE)) := hd.ready.good.corner _ (by cases top <;> simp)
  have hlt : y < (d.shape (if top then NE else SE)).lines.length := by rw [(hd.ready.good.shapes _ hpr).height]; exact hy
  obtain ⟨x, h1, h2⟩ := hd.corners (if top then NE else SE) (by cases top <;> simp) _ (List.getElem_mem hlt)
  refine ⟨x, List.mem_append_right _ ?_, h2⟩
  simp [lineText, List.getElem?_eq_getElem hlt, h1]

/-- every line of a box around some texts: its characters -/
theorem boxAround_line {db : CharDb} {d : Design} (hd : Recognisable db d) {ind : Nat} {ms : List Str} {lines : List Line}
    (h : BoxAround db d ind ms lines) {l : Line} (hl : l ∈ lines) :
    ∃ b v, l.text = some b ∧ fromUnicode db b.memory = some b ∧ Text b.memory v ∧ NarrowBlanks db v ∧ ∀ c ∈ b.memory, ¬ Forbidden db c := by
  obtain ⟨b, h1, h2⟩ := h.read l hl
  have hok : ∀ {v : Str}, Text b.memory v → ∀ c ∈ v, ¬ Forbidden db c := by
    intro v hv c hc hf
    have := (C01_rejected_iff db hv).2 ⟨c, hc, hf⟩
    rw [h2] at this; simp at this
  have hedge : ∀ {top ind y}, EdgeRow db d top ind y b.memory →
      ∃ b v, l.text = some b ∧ fromUnicode db b.memory = some b ∧ Text b.memory v ∧ NarrowBlanks db v ∧ ∀ c ∈ b.memory, ¬ Forbidden db c := by
    intro top ind y he
    have h3 := edgeRow_chars hd he
    have ht := Spec.Text.plain (fun c hc => (h3 c hc).1)
    exact ⟨b, b.memory, h1, h2, ht, fun c hc => (h3 c hc).2, hok ht⟩
  obtain ⟨y, hy⟩ := List.getElem?_of_mem hl
  have hlt := (List.getElem?_eq_some_iff.1 hy).1
  rw [h.count] at hlt
  by_cases a1 : y < (d.shape NE).height
  · exact hedge (h.top y l b a1 hy h1)
  · by_cases a2 : y < (d.shape NE).height + ms.length
    · have hk : y - (d.shape NE).height < ms.length := by omega
      have hbr := h.body (y - (d.shape NE).height) l b _ (List.getElem?_eq_getElem hk) (by rw [← hy]; congr 1; omega) h1
      obtain ⟨u, hu, hun⟩ := h.texts _ (List.getElem_mem hk)
      obtain ⟨n, -, n', -, -, -, w, -, e, -, hrow, -, -, ht, hnb⟩ := bodyRow_parts hd hu hun hbr
      refine ⟨b, _, h1, h2, ht, hnb, ?_⟩
      intro c hc
      rw [hrow] at hc
      rcases List.mem_append.1 hc with hc | hc
      · rcases List.mem_append.1 hc with hc | hc
        · exact hok ht c (by simp only [List.mem_append] at hc ⊢; exact .inl (.inl hc))
        · exact h.allowed _ (List.getElem_mem hk) c hc
      · exact hok ht c (by simp only [List.mem_append]; exact .inr hc)
    · exact hedge (h.bottom (y - ((d.shape NE).height + ms.length)) l b (by omega) (by rw [← hy]; congr 1; omega) h1)

theorem boxAround_ready {db : CharDb} {d : Design} (hd : Recognisable db d) {ind : Nat} {ms : List Str} {lines : List Line}
    (h : BoxAround db d ind ms lines) : ReadyInput db lines ∧ CleanInput db lines := by
  constructor
  · intro l hl
    obtain ⟨b, v, h1, h2, h3, h4, -⟩ := boxAround_line hd h hl
    exact ⟨b, v, h1, h2, h3, h4⟩
  · intro l hl b hb x hx
    obtain ⟨b', v, h1, h2, h3, h4, h5⟩ := boxAround_line hd h hl
    rw [hb] at h1; obtain rfl := Option.some.inj h1
    exact h5 x hx

theorem seen_text {db : CharDb} {l : Line} {b : Bxs} (hl : l.text = some b) (hb : fromUnicode db b.memory = some b)
    (hp : ∀ c ∈ b.memory, RowChar db c) (hs : Seen db b.memory) : textIsBlank db l.text = false := by
  rw [hl]
  exact seen_not_blank (Spec.Text.plain (fun c hc => (hp c hc).1)) hb hs

theorem findBox_none {db : CharDb} {d : Design} {i : Input} (h : findBox db d i = .ok none) : i.lines.length ≤ findFirstLine db i.lines := by
  unfold findBox at h
  simp only [Res.bind_eq_ok] at h
  obtain ⟨dm, _, im, _, h⟩ := h
  split at h
  · assumption
  · simp only [Res.bind_eq_ok] at h
    obtain ⟨q, -, q', -, h⟩ := h
    have hn : ∀ a b : Nat, (if a > b then a - b else 0) = a - b := by intro a b; split <;> omega
    simp only [hn] at h
    by_cases hpos : findLastLine db i.lines + 1 - q'.fst - (findFirstLine db i.lines + q.fst) > 0
    · rw [if_pos hpos] at h
      obtain ⟨c, -, h⟩ := Res.bind_eq_ok.1 h
      simp at h
    · rw [if_neg hpos] at h
      simp at h

theorem design_mono {db : CharDb} {d : Design} (hd : Recognisable db d) : designColoured d = false := by
  cases hc : designColoured d with
  | false => rfl
  | true =>
    unfold designColoured at hc
    rw [List.any_eq_true] at hc
    obtain ⟨n, -, hn⟩ := hc
    simp only [Bool.and_eq_true, Bool.not_eq_true', List.any_eq_true, decide_eq_true_eq] at hn
    obtain ⟨h1, b, h2, h3⟩ := hn
    have hp := (isEmpty_iff _).1 h1
    have hb := List.mem_of_mem_take h2
    rcases hd.ready.lines n hp b hb with ⟨w, rfl⟩ | ⟨v, e1, e2, -⟩
    · simp [fromAscii] at h3
    · have hpl := Spec.Text.plain (hd.plain n hp b hb)
      exact absurd rfl ((C27_colour db _ _ b hpl e2).1 h3)

/-- if no line has escape sequences, the visible text of a line is its text -/
theorem mono_line {db : CharDb} {lines : List Line} (hc : inputColoured lines = false) {l : Line} (hl : l ∈ lines) {b : Bxs} {v : Str} (hb : l.text = some b)
    (h : fromUnicode db b.memory = some b) (hv : Text b.memory v) : b.memory = v := by
  refine Classical.byContradiction fun hne => ?_
  have h1 := (C27_colour db _ _ b hv h).2 hne
  have : inputColoured lines = true := by
    unfold inputColoured
    rw [List.any_eq_true]
    exact ⟨l, hl, by rw [hb]; simpa using h1⟩
  rw [hc] at this; simp at this

theorem side_seen {db : CharDb} (hdb : Sane db) {d : Design} (hd : Recognisable db d) : determineEmptySides d = ⟨false, false, false, false⟩ := by
  have key : ∀ side n, n ∈ side → n ∈ [NW, NE, SW, SE] → emptySide d.shape side = false := by
    intro side n h1 h2
    cases hh : emptySide d.shape side with
    | false => rfl
    | true =>
      have hp := hd.ready.good.corner n (by simp only [List.mem_cons, List.not_mem_nil, or_false] at h2 ⊢; rcases h2 with h | h | h | h <;> simp [h])
      have hb := (emptySide_iff hdb hd.ready.good.shapes side).1 hh n h1 hp
      obtain ⟨b, hb'⟩ := List.exists_mem_of_ne_nil _ hp.1
      obtain ⟨c, c1, c2, c3, c4⟩ := hd.corners n h2 b hb'
      rcases hb b hb' _ (Spec.Text.plain (hd.plain n hp b hb')) c c1 with h | h
      · exact absurd h c2
      · exact absurd h c4
  unfold determineEmptySides
  rw [key northSide NW (by decide) (by decide), key eastSide NE (by decide) (by decide), key southSide SE (by decide) (by decide),
    key westSide NW (by decide) (by decide)]

/-- what is recorded for the body lines of a box: the sides are found where they are -/
theorem boxAround_body {db : CharDb} (hdb : Sane db) {d : Design} (hd : Recognisable db d) {ind : Nat} {lines : List Line} {ctx : RemoveCtx} {ct : CompType}
    (hct : ct.skipsShape = false)
    {body : List LineCtx} {num start : Nat} {west east : List ShapeLine} (he : ctx.emptySide.left = false ∧ ctx.emptySide.right = false)
    (hw : prepareCompShapesVert db d true ct = .ok west) (hea : prepareCompShapesVert db d false ct = .ok east)
    (hv : vertLines db lines ctx ct west east num start = .ok body) {k : Nat} (hk : k < num) {l : Line} {b w e : Bxs} {n n' : ShapeName} {u v : Str}
    (hl : lines[start + k]? = some l) (hlt : l.text = some b) (hb : fromUnicode db b.memory = some b)
    (hlit : ct.skipsInput = false → b.memory = v)
    (hpad : d.padding.left ≤ u.length ∧ ∀ c ∈ u.take d.padding.left, Blank db c)
    (hn1 : n ∈ [WNW, W, WSW]) (hn2 : n' ∈ [ENE, E, ESE]) (hpr : Present (d.shape n)) (hpr' : Present (d.shape n'))
    (hwm : w ∈ (d.shape n).lines) (hem : e ∈ (d.shape n').lines)
    (hrow : v = spaces ind ++ w.memory ++ u ++ dropTrailing db e.memory) (htb : Text b.memory v) (hn : NarrowBlanks db v) :
    ∃ lc, body[k]? = some lc ∧ keepFrom db d lc v = ind + w.memory.length + d.padding.left ∧ keepTo lc v = ind + w.memory.length + u.length := by
  obtain ⟨-, hbody⟩ := C64_body db lines ctx ct west east (C64_shapes db d true _ west hw).2.2 (C64_shapes db d false _ east hea).2.2 _ _ _ hv
  obtain ⟨s, ln, b', x, y, lc, f1, f2, f3, f4, f5, f6, f7⟩ := hbody k hk
  rw [hl] at f2; obtain rfl := Option.some.inj f2
  rw [hlt] at f3; obtain rfl := Option.some.inj f3
  rw [he.1] at f6; rw [he.2] at f7
  simp only [Bool.false_eq_true, if_false] at f6 f7
  have hp : ∀ c ∈ v, c ≠ 0x1b := text_vis_ne htb
  obtain ⟨t, g1, -, g3, g4⟩ := C25_input db lines (start + k) ct false htb hb hl hlt hn
  rw [g1] at f1; obtain rfl := Res.ok.inj f1
  have htv : t = v := by
    cases hs : ct.skipsInput with
    | true => rw [g3 hs]; simp [stripped]
    | false => rw [(g4 hs).2 rfl]; exact hlit hs
  subst htv
  have hsw := hd.west n hn1 hpr w hwm
  have hse := hd.east n' hn2 hpr' e hem
  obtain ⟨xx, c, yy, z1, z2, z3, z4⟩ := dropTrailing_split db (seen_nonblank hse)
  have hbnb : ∃ c ∈ t, ¬ Blank db c := ⟨c, by rw [hrow, z4]; simp, z2⟩
  have hdt : dropTrailing db t = t := by
    rw [hrow, z4, ← List.append_assoc]; exact dropTrailing_app db _ c [] z2 (by simp)
  have hrow1 : t = spaces ind ++ w.memory ++ (u ++ dropTrailing db e.memory) := by rw [hrow]; simp
  have hlead : leadingBlanks db t = ind + leadingBlanks db w.memory := by
    rw [hrow1]; exact leading_row hdb ind _ _ (seen_nonblank hsw)
  have htrail : b.trailing = 0 := by
    have hany : t.any (fun c => !decide (Blank db c)) = true := by
      obtain ⟨c', hc', hcb⟩ := hbnb
      rw [List.any_eq_true]; exact ⟨c', hc', by simp [hcb]⟩
    obtain ⟨t1, t2, -, t4⟩ := trailing_eq db htb hb
    rw [hdt, if_pos hany] at t2
    have h1 := congrArg List.length t2
    rw [List.length_take] at h1
    have h2 := t4 hany
    omega
  obtain ⟨x', y', m1, m2, m3⟩ := C25_margins db ct htb hb hn
  rw [m1] at f4
  obtain ⟨rfl, rfl⟩ := Prod.mk.inj (Res.ok.inj f4)
  have hxy : x' = ind + leadingBlanks db w.memory ∧ y' = 0 := by
    cases hs : ct.skipsInput with
    | true =>
      obtain ⟨h1, h2⟩ := m2 hs
      exact ⟨by rw [h1, hlead], by rw [h2, htrail]⟩
    | false =>
      obtain ⟨m4, m5, m6, -, m7⟩ := m3 hs
      rw [hlit hs] at m4 m5 m6 m7
      constructor
      · have h1 := row_plain hp (List.take_prefix x' t) m6
        have h2 := congrArg List.length h1
        have h3 := leadingBlanks_lt db hbnb
        rw [List.length_take, List.length_take] at h2
        omega
      · rw [htrail] at m7
        have hpt : Text (t.drop (t.length - y')) (t.drop (t.length - y')) :=
          Spec.Text.plain (fun c hc => hp c (List.mem_of_mem_drop hc))
        have h4 := congrArg List.length (hpt.unique m7)
        rw [List.length_drop, List.length_drop] at h4
        omega
  obtain ⟨rfl, rfl⟩ := hxy
  obtain ⟨v1, v2⟩ := vertShapes_mem hd.ready.good hct hw
  obtain ⟨u1, u2⟩ := vertShapes_mem hd.ready.good hct hea
  simp only [if_true, Bool.false_eq_true, if_false] at v1 v2 u1 u2
  have hdeep : ∀ n, Present (d.shape n) → ∀ b ∈ (d.shape n).lines, Seen db b.memory → (d.shape n).isDeepEmpty = false := by
    intro n hp b hb hs
    cases hh : (d.shape n).isDeepEmpty with
    | false => rfl
    | true =>
      obtain ⟨c, c1, c2, -, c4⟩ := hs
      rcases (isDeepEmpty_iff hdb (hd.ready.good.shapes n)).1 hh hp b hb _ (Spec.Text.plain (hd.plain n hp b hb)) c c1 with h | h
      · exact absurd h c2
      · exact absurd h c4
  obtain ⟨slw, w1, w2, w3⟩ := v2 n hn1 hpr w hwm
  obtain ⟨sle, e1, e2, e3⟩ := u2 n' hn2 hpr' e hem
  have hwb := west_best hdb (seen_nonblank hsw) w1 (by rw [w3]; exact hdeep n hpr w hwm hsw) w2 (by
    intro sl hsl
    obtain ⟨n2, i1, i2, b2, i3, i4⟩ := v1 sl hsl
    rw [i4]
    obtain ⟨a1, a2⟩ := hd.westAlike n2 i1 n hn1 i2 hpr b2 i3 w hwm
    exact ⟨seen_nonblank (hd.west n2 i1 i2 b2 i3), a1, a2⟩) (by rw [← hrow1]; exact f6)
  have heb := east_best (seen_nonblank hse) e1 (by rw [e3]; exact hdeep n' hpr' e hem hse) e2 (by
    intro sl hsl
    obtain ⟨n2, i1, i2, b2, i3, i4⟩ := u1 sl hsl
    rw [i4]
    obtain ⟨a1, a2⟩ := hd.eastAlike n2 i1 n' hn2 i2 hpr' b2 i3 e hem
    exact ⟨seen_nonblank (hd.east n2 i1 i2 b2 i3), a1, a2⟩) (by rw [← hrow]; exact f7)
  obtain ⟨p1, p2, p3⟩ := hwb
  obtain ⟨q1, q2, q3⟩ := heb
  have hwpos : 0 < w.memory.length := by
    obtain ⟨c, hc, -⟩ := hsw; exact List.length_pos_of_mem hc
  have hlen : (spaces ind).length = ind := by simp [spaces]
  have hdrop : t.drop (ind + w.memory.length) = u ++ dropTrailing db e.memory := by
    rw [hrow1, List.drop_append_of_le_length (by simp [hlen]), List.drop_of_length_le (by simp [hlen])]; rfl
  refine ⟨lc, f5, ?_, ?_⟩
  · unfold keepFrom
    rw [if_pos (by omega), p2, hdrop, List.take_append_of_le_length hpad.1, leadingBlanks_all db hpad.2, List.length_take, Nat.min_eq_left hpad.1]
  · unfold keepTo
    rw [if_pos q3, q1]
    simp [hlen]; omega

/-- what is left of a line: what is between the sides and the padding, with its escape sequences -/
theorem removeVerticalLine_exact {db : CharDb} (hdb : Sane db) {opt : Opt} {d : Design} {n : Nat} {ct : CompType} {line : Line} {lc : LineCtx} {b : Bxs}
    {P K Q k q : Str} (hl : line.text = some b) (hb : fromUnicode db b.memory = some b) (hm : b.memory = P ++ K ++ Q)
    (hP : ∀ c ∈ P, c ≠ 0x1b) (hK : Text K k) (hQ : Text Q q) (hlit : ct.skipsInput = false → b.memory = P ++ k ++ q)
    (hf : FrontKept (K ++ Q)) (hbk : BackKept (P ++ K)) (hq : FrontKept Q)
    (hfrom : keepFrom db d lc (P ++ k ++ q) = P.length) (hto : keepTo lc (P ++ k ++ q) = P.length + k.length) :
    removeVerticalLine db opt d n ct line lc = .ok { line with text := fromUnicode db (spaces (restored opt n) ++ K) } := by
  have hn := fromUnicode_numChars hb
  have hPt : Text P P := Spec.Text.plain hP
  have htb : Text b.memory (P ++ k ++ q) := by rw [hm]; exact (hPt.append hK).append hQ
  have hcl : ∀ x ∈ k, ¬ Forbidden db x := by
    intro x hx hf
    have := (C01_rejected_iff db htb).2 ⟨x, by simp [hx], hf⟩
    rw [hb] at this; simp at this
  obtain ⟨s, e, hs, he, hcut, hle⟩ : ∃ s e, calculateStartIdx db d ct b lc = .ok s ∧ calculateEndIdx ct b lc = .ok e ∧ (b.memory.take e).drop s = K ∧
      min s b.memory.length ≤ min e b.memory.length := by
    cases hc : ct.skipsInput with
    | false =>
      have hv := hlit hc
      have hkk : K = k := by
        have h1 := hv
        rw [hm, List.append_assoc, List.append_assoc] at h1
        have h2 : K ++ Q = k ++ q := List.append_cancel_left h1
        have h3 : ∀ c ∈ K, c ≠ 0x1b := fun c hc => text_vis_ne (hK.append hQ) c (by rw [← h2]; simp [hc])
        exact (Spec.Text.plain h3).unique hK
      refine ⟨P.length, P.length + k.length, ?_, ?_, ?_, by omega⟩
      · rw [calculateStartIdx_eq (v := b.memory) (by rw [maxChars_literal hc, hn]) (fun x y => orgIsNotBlank_literal hc x y), hc, hv, hfrom]
        simp
      · rw [calculateEndIdx_eq (v := b.memory) (by rw [maxChars_literal hc, hn]), hc, hv, hto]
        simp
      · rw [hm, ← hkk, List.take_append_of_le_length (by simp), List.take_of_length_le (by simp), List.drop_left]
    | true =>
      have hff := firstChar_from db htb hb
      have hvis : b.vis = (P ++ k ++ q).length := by
        obtain ⟨ts, h1, h2, h3, h4, h5⟩ := fromUnicode_text_some db htb hb
        rw [h5, ← h3]; rfl
      have key : ∀ {a p u w : Str}, b.memory = a ++ p → P ++ k ++ q = u ++ w → Text a u → Text p w → BackKept a → FrontKept p →
          ∃ x, Res.get b.firstChar[u.length]? = .ok x ∧ b.memory.take x = a := by
        intro a p u w e1 e2 e3 e4 e5 e6
        obtain ⟨x, g1, g2, g3⟩ := hff u.length
        have hle : u.length ≤ (P ++ k ++ q).length := by rw [e2]; simp
        rw [hvis, show (if u.length ≥ (P ++ k ++ q).length then (P ++ k ++ q).length else u.length) = u.length by split <;> omega] at g1
        have h1 := from_at e3 e4 e5 e6
        rw [← e1, ← e2] at h1
        have h2 := from_unique htb g2 h1
        refine ⟨x, by rw [g1]; rfl, ?_⟩
        have h3 := List.take_append_drop x b.memory
        rw [h2] at h3
        exact List.append_cancel_right (h3.trans e1)
      obtain ⟨s, s1, s2⟩ := key (a := P) (p := K ++ Q) (u := P) (w := k ++ q) (by rw [hm, List.append_assoc]) (by rw [List.append_assoc]) hPt
        (hK.append hQ) (backKept_plain hP) hf
      obtain ⟨e, e1, e2⟩ := key (a := P ++ K) (p := Q) (u := P ++ k) (w := q) hm rfl (hPt.append hK) hQ hbk hq
      have l1 := congrArg List.length s2
      have l2 := congrArg List.length e2
      rw [List.length_take] at l1 l2
      rw [List.length_append] at l2
      have hlm := congrArg List.length hm
      simp only [List.length_append] at hlm
      refine ⟨s, e, ?_, ?_, ?_, by omega⟩
      · obtain ⟨ts, h1, h2, h3, h4, h5⟩ := fromUnicode_text_some db htb hb
        rw [h5, calculateStartIdx_eq (v := visOf ts) (maxChars_visible hc) (fun x y => orgIsNotBlank_visible hc x y), hc, h3, hfrom, ← h5]
        simpa using s1
      · obtain ⟨ts, h1, h2, h3, h4, h5⟩ := fromUnicode_text_some db htb hb
        rw [h5, calculateEndIdx_eq (v := visOf ts) (maxChars_visible hc), hc, h3, hto, ← h5]
        simpa using e1
      · rw [e2]
        by_cases hh : s ≤ b.memory.length
        · rw [show s = P.length by omega, List.drop_left]
        · have : K = [] := List.eq_nil_of_length_eq_zero (by omega)
          rw [this, List.append_nil]
          exact List.drop_of_length_le (by omega)
  unfold removeVerticalLine
  rw [hl]
  simp only [Res.get_some, Res.ok_bind, hs, he]
  have hsub : b.substr db s e = fromUnicode db K := by
    rw [← hcut]
    unfold Bxs.substr
    dsimp only
    rw [hn, clamp_take, clamp_drop, if_neg (by split <;> split <;> omega)]
  obtain ⟨t, ht⟩ := analysed db hK hcl
  rw [hsub, ht]
  unfold restored
  split
  · rw [show spaces n = List.replicate n 0x20 from rfl, C05_prepend db hdb hK ht n]; rfl
  · rw [show spaces 0 = [] from rfl, List.nil_append, ht]

/-- the line that is left is blank exactly if its text is -/
theorem blankText_iff {db : CharDb} {s v : Str} (ht : Text s v) (hs : ∀ c ∈ v, ¬ Forbidden db c) :
    textIsBlank db (fromUnicode db s) = true ↔ BlankText db v := by
  obtain ⟨b, hb⟩ := analysed db ht hs
  rw [hb]
  exact C06_is_blank db ht hb

theorem blanksDropped_texts {db : CharDb} {limit : Option Nat} {body : List Line} {ts us : List Str} {k : Nat}
    (h : ∀ x : Nat, body[x]?.map Line.text = ts[x]?.map (fromUnicode db)) (hl : body.length = ts.length) (hlu : us.length = ts.length)
    (ht : ∀ (x : Nat) t u, ts[x]? = some t → us[x]? = some u → Text t u ∧ ∀ c ∈ u, ¬ Forbidden db c) (hd : BlanksDropped db limit body k) :
    BlankLinesDropped db limit us k := by
  have key : ∀ (x : Nat) u, us[x]? = some u → ∃ t l, body[x]? = some l ∧ l.text = fromUnicode db t ∧ Text t u ∧ ∀ c ∈ u, ¬ Forbidden db c := by
    intro x u hx
    have hlt := (List.getElem?_eq_some_iff.1 hx).1
    have hg := List.getElem?_eq_getElem (l := ts) (i := x) (by omega)
    have := h x
    rw [hg] at this
    obtain ⟨a1, a2⟩ := ht x _ u hg hx
    cases hb : body[x]? with
    | none => rw [hb] at this; simp at this
    | some l => rw [hb] at this; exact ⟨_, l, rfl, by simpa using this, a1, a2⟩
  refine ⟨by rw [hlu, ← hl]; exact hd.inside, ?_, hd.atMost, ?_⟩
  · intro x u hx hxt
    obtain ⟨t, l, h1, h2, a1, a2⟩ := key x u hxt
    have := hd.blank x l hx h1
    rw [h2] at this
    exact (blankText_iff a1 a2).1 this
  · intro hk
    rcases hd.most (by omega) with h | ⟨l, h1, h2⟩
    · exact .inl h
    · right
      have hg := List.getElem?_eq_getElem hk
      obtain ⟨t, l', e1, e2, a1, a2⟩ := key k _ hg
      rw [h1] at e1; obtain rfl := Option.some.inj e1
      refine ⟨_, hg, fun hb => ?_⟩
      rw [e2, (blankText_iff a1 a2).2 hb] at h2
      simp at h2

/-- C70: if the input is a box around some texts, drawn with a design whose boxes are recognised, then removing it gives these texts back:
behind the common indentation, each text without its padding; blank lines at the start and end are dropped as the options say.
Nothing else is left and nothing else is changed.  The escape sequences in the texts are kept.  (`us` are the visible texts.) -/
theorem C70_removed (db : CharDb) (hdb : Sane db) (opt : Opt) (d : Design) (hd : Recognisable db d) (i : Input) (ind : Nat)
    (ms ts us : List Str) (hbox : BoxAround db d ind ms i.lines)
    (hts : ts = ms.map (fun m => spaces (restored opt i.indent) ++ m.drop d.padding.left))
    (hlu : us.length = ts.length) (hus : ∀ (x : Nat) t u, ts[x]? = some t → us[x]? = some u → Text t u) :
    ∃ j k k', removeBox db opt d i = .ok j ∧ k + k' ≤ ts.length ∧
      (if opt.killblank ≠ 0 ∨ opt.mend ≠ 0 then
        BlankLinesDropped db (maxRemovable opt d.padding.top) us k ∧ BlankLinesDropped db (maxRemovable opt d.padding.bottom) (us.drop k).reverse k'
       else k = 0 ∧ k' = 0) ∧
      j.lines.length + k + k' = ts.length ∧ j.finalNewline = i.finalNewline ∧
      ∀ (x : Nat) l, j.lines[x]? = some l → ∃ t l0, ts[k + x]? = some t ∧ i.lines[(d.shape NE).height + k + x]? = some l0 ∧
        l = { l0 with text := fromUnicode db t } := by
  obtain ⟨hin, hcl⟩ := boxAround_ready hd hbox
  obtain ⟨q, hq, htot⟩ := C23_total db hdb opt d hd.ready i hin hcl
  have hcount := hbox.count
  have hpNE := hd.ready.good.corner NE (by decide)
  have hpSE := hd.ready.good.corner SE (by decide)
  have hNE : 0 < (d.shape NE).height := hpNE.2.2
  have hSE : 0 < (d.shape SE).height := hpSE.2.2
  have hline : ∀ x, x < i.lines.length → ∃ l b v, i.lines[x]? = some l ∧ l.text = some b ∧ fromUnicode db b.memory = some b ∧
      Text b.memory v ∧ NarrowBlanks db v ∧ ∀ c ∈ b.memory, ¬ Forbidden db c := by
    intro x hx
    obtain ⟨b, v, h1, h2, h3⟩ := boxAround_line hd hbox (List.getElem_mem hx)
    exact ⟨_, b, v, List.getElem?_eq_getElem hx, h1, h2, h3⟩
  have hfirst : ∀ l, i.lines[0]? = some l → textIsBlank db l.text = false := by
    intro l hl
    obtain ⟨l', b, v, e1, e2, e3, -⟩ := hline 0 (by omega)
    rw [hl] at e1; obtain rfl := Option.some.inj e1
    have he := hbox.top 0 l b hNE hl e2
    exact seen_text e2 e3 (edgeRow_chars hd he) (edgeRow_seen hd (top := true) (by simpa using hNE) he)
  have hlast : ∀ l, i.lines[i.lines.length - 1]? = some l → textIsBlank db l.text = false := by
    intro l hl
    obtain ⟨l', b, v, e1, e2, e3, -⟩ := hline (i.lines.length - 1) (by omega)
    rw [hl] at e1; obtain rfl := Option.some.inj e1
    have he : EdgeRow db d false ind ((d.shape SE).height - 1) b.memory := hbox.bottom _ l b (by omega) (by rw [← hl]; congr 1; omega) e2
    exact seen_text e2 e3 (edgeRow_chars hd he) (edgeRow_seen hd (top := false) (by simp; omega) he)
  obtain ⟨ctx, rfl⟩ : ∃ ctx, q = some ctx := by
    cases q with
    | some ctx => exact ⟨ctx, rfl⟩
    | none =>
      have h1 := findBox_none hq
      obtain ⟨l, b, v, e1, -⟩ := hline 0 (by omega)
      have h2 := (findFirstLine_spec db i.lines).1 0 l (by omega) e1
      rw [hfirst l e1] at h2; simp at h2
  obtain ⟨a1, a2, a3, a4, a5, a6, a7, a8, a9, a10, a11⟩ := findBox_spec hq
  obtain ⟨l1, l2, l3, l4⟩ := findLastLine_spec db i.lines a1
  obtain ⟨b1, b2, b3, ⟨-, b4⟩, ⟨-, b5⟩, b6, b7, b8, b9⟩ := C64_box db d i ctx hq
  rw [side_seen hdb hd] at b3 a7 a8
  rw [design_mono hd] at b2
  have hts0 : ctx.topStart = 0 := by
    refine Classical.byContradiction fun h => ?_
    obtain ⟨l, b, v, e1, -⟩ := hline 0 (by omega)
    have := b4 0 l (by omega) e1
    rw [hfirst l e1] at this; simp at this
  have hbe : ctx.bottomEnd = i.lines.length := by
    refine Classical.byContradiction fun h => ?_
    obtain ⟨l, b, v, e1, -⟩ := hline (i.lines.length - 1) (by omega)
    have := b5 (i.lines.length - 1) l (by omega) e1
    rw [hlast l e1] at this; simp at this
  have hct0 : ∀ ct, applicable ct (!ctx.inputMono) (!ctx.designMono) = true → ct.skipsShape = false ∧ (ct.skipsInput = false → inputColoured i.lines = false) := by
    intro ct h
    rw [b2, b1] at h
    revert h
    cases ct <;> cases inputColoured i.lines <;> simp [applicable, CompType.skipsShape, CompType.skipsInput]
  have hrec : ∀ (top : Bool) x y, x < i.lines.length → y < (d.shape (if top then NE else SE)).height →
      (∀ l b, i.lines[x]? = some l → l.text = some b → EdgeRow db d top ind y b.memory) → Recognised db d i.lines ctx top x y := by
    intro top x y hx hy hr
    obtain ⟨l, b, v, e1, e2, e3, -⟩ := hline x hx
    have e4 := edgeRow_chars hd (hr l b e1 e2)
    obtain ⟨ct, hct⟩ : ∃ ct, applicable ct (!ctx.inputMono) (!ctx.designMono) = true := by
      rw [b2, b1]
      cases inputColoured i.lines
      · exact ⟨.literal, rfl⟩
      · exact ⟨.ignoreInput, rfl⟩
    exact ⟨ct, hct, edge_found hdb hd (hct0 ct hct).1 e1 e2 e3 (fun c hc => (e4 c hc).1) (fun c hc => (e4 c hc).2) (by rw [b3]; exact ⟨rfl, rfl⟩) hy
      (hr l b e1 e2)⟩
  rw [b3] at b6 b7
  simp only [Bool.false_eq_true, if_false] at b6 b7
  have hte : ctx.topEnd = (d.shape NE).height := by
    obtain ⟨k, k1, k2, -, k4⟩ := b6
    rcases k4 with h | h | h
    · omega
    · omega
    · refine Classical.byContradiction fun hne => h k (by omega) ?_
      refine hrec true _ k (by omega) (by simp; omega) ?_
      intro l b e1 e2
      exact hbox.top k l b (by omega) (by rw [← e1]; congr 1; omega) e2
  have hbs : ctx.bottomStart = (d.shape NE).height + ms.length := by
    obtain ⟨k, k1, k2, -, k4⟩ := b7
    rcases k4 with h | h | h
    · omega
    · omega
    · refine Classical.byContradiction fun hne => h ((d.shape SE).height - k - 1) (by omega) ?_
      refine hrec false _ _ (by omega) (by simp; omega) ?_
      intro l b e1 e2
      exact hbox.bottom _ l b (by omega) (by rw [← e1]; congr 1; omega) e2
  have hnum : ctx.bodyNum = ms.length := by omega
  -- what is recorded for the body
  have hbody : ∀ (x : Nat) m, ms[x]? = some m → ∃ l b v lc, i.lines[(d.shape NE).height + x]? = some l ∧ l.text = some b ∧
      Text b.memory v ∧ (ctx.compType.skipsInput = false → b.memory = v) ∧ ctx.body[x]? = some lc ∧
      keepFrom db d lc v ≤ keepTo lc v ∧ ∀ n, removeVerticalLine db opt d n ctx.compType l lc =
        .ok { l with text := fromUnicode db (spaces (restored opt n) ++ m.drop d.padding.left) } := by
    intro x m hx
    have hxl := (List.getElem?_eq_some_iff.1 hx).1
    rw [if_neg (by rw [b3]; simp; omega)] at b9
    obtain ⟨w1, ⟨west, east, w2, w3, w4⟩, -⟩ := b9
    obtain ⟨hsh, hmono⟩ := hct0 _ w1
    rw [b3] at w2 w3
    simp only [Bool.false_eq_true, if_false] at w2 w3
    obtain ⟨l, b, v, e1, e2, e3, e4, e5, -⟩ := hline ((d.shape NE).height + x) (by omega)
    have hmm := List.mem_of_getElem? hx
    obtain ⟨u, hu, hun⟩ := hbox.texts m hmm
    obtain ⟨hp1, hp2⟩ := hbox.padded m hmm
    obtain ⟨hk1, hk2⟩ := hbox.kept m hmm
    obtain ⟨n, r1, n', r2, r3, r4, w, r5, e, r6, r7, r8, r9, r10, r11⟩ := bodyRow_parts hd hu hun (hbox.body x l b m hx e1 e2)
    obtain rfl := e4.unique r10
    -- the visible text begins with the padding
    have hm0 : m = m.take d.padding.left ++ m.drop d.padding.left := (List.take_append_drop _ _).symm
    obtain ⟨u', hu', hu''⟩ := text_plain_append (p := m.take d.padding.left) (z := m.drop d.padding.left) (fun c hc => (hp2 c hc).2) (by rw [← hm0]; exact hu)
    have hl0 : (m.take d.padding.left).length = d.padding.left := by rw [List.length_take]; omega
    have hpad : d.padding.left ≤ u.length ∧ ∀ c ∈ u.take d.padding.left, Blank db c := by
      rw [hu']
      refine ⟨by simp; omega, ?_⟩
      rw [List.take_append_of_le_length (by omega), List.take_of_length_le (by omega)]
      exact fun c hc => (hp2 c hc).1
    have hlit : ctx.compType.skipsInput = false → b.memory = spaces ind ++ w.memory ++ u ++ dropTrailing db e.memory :=
      fun h => mono_line (hmono h) (List.mem_of_getElem? e1) e2 e3 e4
    obtain ⟨lc, f1, f2, f3⟩ := boxAround_body hdb hd hsh (by rw [b3]; exact ⟨rfl, rfl⟩) w2 w3 w4 (k := x) (by omega) (by rw [hte]; exact e1) e2 e3 hlit
      hpad r1 r2 r3 r4 r5 r6 rfl e4 e5
    refine ⟨l, b, _, lc, e1, e2, e4, hlit, f1, by rw [f2, f3]; omega, ?_⟩
    intro nn
    have hV : spaces ind ++ w.memory ++ u ++ dropTrailing db e.memory =
        (spaces ind ++ w.memory ++ m.take d.padding.left) ++ u' ++ dropTrailing db e.memory := by rw [hu']; simp
    have hM : b.memory = (spaces ind ++ w.memory ++ m.take d.padding.left) ++ m.drop d.padding.left ++ dropTrailing db e.memory := by
      rw [r7]; conv => lhs; rw [hm0]
      simp
    have hPl : (spaces ind ++ w.memory ++ m.take d.padding.left).length = ind + w.memory.length + d.padding.left := by
      simp only [List.length_append, hl0]; simp [spaces]
    have hP : ∀ c ∈ spaces ind ++ w.memory ++ m.take d.padding.left, c ≠ 0x1b := by
      intro c hc
      rcases List.mem_append.1 hc with hc | hc
      · exact (r8 c hc).1
      · exact (hp2 c hc).2
    have hQ : ∀ c ∈ dropTrailing db e.memory, c ≠ 0x1b := fun c hc => (r9 c hc).1
    refine removeVerticalLine_exact hdb e2 e3 hM hP hu'' (Spec.Text.plain hQ) (fun h => by rw [← hV]; exact hlit h)
      (frontKept_append hk1 (frontKept_plain hQ)) ?_ (frontKept_plain hQ) (by rw [← hV, f2, hPl]) (by
        rw [← hV, f3, hPl, hu', List.length_append, hl0]; omega)
    rw [List.append_assoc, ← hm0]
    exact backKept_prefix (fun c hc => (r8 c hc).1) hk2
  obtain ⟨j, hj⟩ := htot ctx rfl (by omega) (by
    intro k l lc b v h1 h2 h3 h4
    have hk := (List.getElem?_eq_some_iff.1 h2).1
    obtain ⟨l', b', v', lc', e1, e2, e3, e4, e5, e6, -⟩ := hbody k _ (List.getElem?_eq_getElem (by omega))
    rw [hte, e1] at h1; obtain rfl := Option.some.inj h1
    rw [e2] at h3; obtain rfl := Option.some.inj h3
    rw [e5] at h2; obtain rfl := Option.some.inj h2
    obtain rfl := e3.unique h4
    cases hs : ctx.compType.skipsInput with
    | true => simpa using e6
    | false => rw [e4 hs]; simpa using e6)
  obtain ⟨-, -, -, -, -, -, -, -, body, mid, mid', k, k', n, g1, g2, g3, g4, g5, g6, g7, g8, g9, g10, g11, -⟩ :=
    C23_structure db opt d i j ctx hq (by omega) hj
  rw [side_seen hdb hd] at g7
  obtain rfl := g7.closed rfl
  have hlen : ts.length = ms.length := by rw [hts]; simp
  have hbl : ∀ x, x < ms.length → ∃ m l, ms[x]? = some m ∧ i.lines[(d.shape NE).height + x]? = some l ∧
      ts[x]? = some (spaces (restored opt i.indent) ++ m.drop d.padding.left) ∧
      body[x]? = some { l with text := fromUnicode db (spaces (restored opt i.indent) ++ m.drop d.padding.left) } := by
    intro x hx
    obtain ⟨l, b, v, lc, e1, e2, -, -, e5, -, e7⟩ := hbody x _ (List.getElem?_eq_getElem hx)
    have hbx : x < body.length := by omega
    have h1 := g3 x l lc _ (by rw [hte]; exact e1) e5 (List.getElem?_eq_getElem hbx)
    rw [e7] at h1
    refine ⟨_, l, List.getElem?_eq_getElem hx, e1, by rw [hts]; simp [List.getElem?_eq_getElem hx], ?_⟩
    rw [List.getElem?_eq_getElem hbx]; exact congrArg some (Res.ok.inj h1).symm
  have hbt : ∀ x : Nat, body[x]?.map Line.text = ts[x]?.map (fromUnicode db) := by
    intro x
    by_cases hx : x < ms.length
    · obtain ⟨m, l, h1, h2, h3, h4⟩ := hbl x hx
      rw [h3, h4]; rfl
    · rw [List.getElem?_eq_none (by omega), List.getElem?_eq_none (by omega)]; rfl
  have htsok : ∀ (x : Nat) t u, ts[x]? = some t → us[x]? = some u → Text t u ∧ ∀ c ∈ u, ¬ Forbidden db c := by
    intro x t u hx hxu
    have htu := hus x t u hx hxu
    refine ⟨htu, ?_⟩
    intro c hc
    have hct : c ∈ t := text_mem htu c hc
    have hxl := (List.getElem?_eq_some_iff.1 hx).1
    obtain ⟨m, l, h1, h2, h3, h4⟩ := hbl x (by omega)
    rw [hx] at h3; obtain rfl := Option.some.inj h3
    rcases List.mem_append.1 hct with hc | hc
    · rw [spaces, List.mem_replicate] at hc
      obtain ⟨-, rfl⟩ := hc
      exact fun hf => absurd hf.1 (by rw [hdb.space_ok]; simp)
    · exact hbox.allowed m (List.mem_of_getElem? h1) c (List.mem_of_mem_drop hc)
  have hmid : mid' = mid := by
    apply List.ext_getElem?
    intro x
    by_cases hx : x < mid.length
    · rw [List.getElem?_eq_getElem hx, List.getElem?_eq_getElem (by omega : x < mid'.length)]
      exact congrArg some ((g9 x _ _ (List.getElem?_eq_getElem hx) (List.getElem?_eq_getElem (by omega))).1 rfl)
    · rw [List.getElem?_eq_none (by omega), List.getElem?_eq_none (by omega)]
  have hjl : j.lines = mid := by
    rw [g10, hts0, hbe, hmid]; simp
  refine ⟨j, k, k', hj, by omega, ?_, ?_, g11, ?_⟩
  · split
    · rename_i hk
      rw [if_pos hk] at g6
      refine ⟨blanksDropped_texts hbt (by omega) hlu htsok g6.1,
        blanksDropped_texts (body := (body.drop k).reverse) (ts := (ts.drop k).reverse) ?_ (by simp; omega) (by simp; omega) ?_ g6.2⟩
      · intro x
        have hext : (body.map Line.text) = ts.map (fromUnicode db) := by
          apply List.ext_getElem?
          intro y
          rw [List.getElem?_map, List.getElem?_map]; exact hbt y
        have : ((body.drop k).reverse).map Line.text = ((ts.drop k).reverse).map (fromUnicode db) := by
          rw [List.map_reverse, List.map_reverse, List.map_drop, List.map_drop, hext]
        have := congrArg (fun l => l[x]?) this
        simpa only [List.getElem?_map] using this
      · intro x t u hx hxu
        have hlt := (List.getElem?_eq_some_iff.1 hx).1
        have hlt' := (List.getElem?_eq_some_iff.1 hxu).1
        rw [List.getElem?_reverse (by simpa using hlt), List.getElem?_drop] at hx
        rw [List.getElem?_reverse (by simpa using hlt'), List.getElem?_drop] at hxu
        rw [show (us.drop k).length = (ts.drop k).length by simp; omega] at hxu
        exact htsok _ t u hx hxu
    · rename_i hk
      rw [if_neg hk] at g6
      exact g6
  · rw [hjl, g5]; simp; omega
  · intro x l hl
    rw [hjl, g5, List.getElem?_drop, List.getElem?_take] at hl
    split at hl
    · rename_i hlt
      obtain ⟨m, l0, h1, h2, h3, h4⟩ := hbl (k + x) (by omega)
      rw [h4] at hl
      exact ⟨_, l0, h3, by rw [← h2]; congr 1; omega, (Option.some.inj hl).symm⟩
    · simp at hl

/-! ## An example: a box around two lines -/

theorem sampleDesign_recognisable : Recognisable sampleDb sampleDesign where
  ready := sampleDesign_ready
  plain := by
    intro n _
    cases n <;> decide +kernel
  corners := by
    intro n hn b hb
    have h : ∀ n ∈ [NW, NE, SW, SE], ∀ b ∈ (sampleDesign.shape n).lines, ∃ c ∈ b.memory, ¬ Blank sampleDb c ∧ c ≠ 0x0d ∧ Spec.width sampleDb c ≠ 0 := by
      decide +kernel
    exact h n hn b hb
  west := by
    intro n hn _ b hb
    have h : ∀ n ∈ [WNW, W, WSW], ∀ b ∈ (sampleDesign.shape n).lines, ∃ c ∈ b.memory, ¬ Blank sampleDb c ∧ c ≠ 0x0d ∧ Spec.width sampleDb c ≠ 0 := by
      decide +kernel
    exact h n hn b hb
  east := by
    intro n hn _ b hb
    have h : ∀ n ∈ [ENE, E, ESE], ∀ b ∈ (sampleDesign.shape n).lines, ∃ c ∈ b.memory, ¬ Blank sampleDb c ∧ c ≠ 0x0d ∧ Spec.width sampleDb c ≠ 0 := by
      decide +kernel
    exact h n hn b hb
  westAlike := by
    intro n hn n' hn' _ _
    revert n n'
    decide +kernel
  eastAlike := by
    intro n hn n' hn' _ _
    revert n n'
    decide +kernel

/-- a box around two lines, indented by two columns -/
def drawnBox : Input := mkInput ["  ..-=<>=-.", "  O|  ab  )", "  || cd   (", "  `'######'"] 2

/-- what is between its sides -/
def drawnTexts : List Str := [lit "  ab  ", lit " cd   "]

theorem drawnBox_around : BoxAround sampleDb sampleDesign 2 drawnTexts drawnBox.lines where
  count := by decide +kernel
  read := by
    have h : ∀ l ∈ drawnBox.lines, (match l.text with
        | some b => decide (fromUnicode sampleDb b.memory = some b)
        | none => false) = true := by decide +kernel
    intro l hl
    have := h l hl
    cases ht : l.text with
    | none => rw [ht] at this; simp at this
    | some b => rw [ht] at this; exact ⟨b, rfl, of_decide_eq_true this⟩
  top := by
    intro y l b hy hl hb
    have hy0 : y = 0 := by have : (sampleDesign.shape NE).height = 1 := by decide
                           omega
    subst hy0
    obtain rfl := Option.some.inj hl
    obtain rfl := Option.some.inj hb
    exact ⟨1, 1, 1, by unfold OccursIn; decide +kernel, by unfold OccursIn; decide +kernel, by unfold OccursIn; decide +kernel, by decide +kernel⟩
  body := by
    intro k l b m hm hl hb
    have hk : k < 2 := by
      obtain ⟨h, -⟩ := List.getElem?_eq_some_iff.1 hm
      exact h
    rcases (by omega : k = 0 ∨ k = 1) with rfl | rfl
    · obtain rfl := Option.some.inj hm
      obtain rfl := Option.some.inj hl
      obtain rfl := Option.some.inj hb
      exact ⟨WNW, by decide, E, by decide, by decide +kernel, by decide +kernel, fromAscii (lit "O|"), by decide +kernel, fromAscii (lit ")"),
        by decide +kernel, by decide +kernel⟩
    · obtain rfl := Option.some.inj hm
      obtain rfl := Option.some.inj hl
      obtain rfl := Option.some.inj hb
      exact ⟨W, by decide, E, by decide, by decide +kernel, by decide +kernel, fromAscii (lit "||"), by decide +kernel, fromAscii (lit "("),
        by decide +kernel, by decide +kernel⟩
  bottom := by
    intro y l b hy hl hb
    have hy0 : y = 0 := by have : (sampleDesign.shape SE).height = 1 := by decide
                           omega
    subst hy0
    obtain rfl := Option.some.inj hl
    obtain rfl := Option.some.inj hb
    exact ⟨0, 6, 0, by unfold OccursIn; decide +kernel, by unfold OccursIn; decide +kernel, by unfold OccursIn; decide +kernel, by decide +kernel⟩
  padded := by decide +kernel
  texts := by
    have h : ∀ m ∈ drawnTexts, (∀ c ∈ m, c ≠ 0x1b) ∧ ∀ c ∈ m, Blank sampleDb c → Spec.width sampleDb c = 1 := by decide +kernel
    intro m hm
    exact ⟨m, Spec.Text.plain (h m hm).1, (h m hm).2⟩
  allowed := by unfold Forbidden; decide +kernel
  kept := by
    have h : ∀ m ∈ drawnTexts, ∀ c ∈ m, c ≠ 0x1b := by decide +kernel
    intro m hm
    exact ⟨frontKept_plain (fun c hc => h m hm c (List.mem_of_mem_drop hc)), backKept_plain (h m hm)⟩

example : ∃ j k k', removeBox sampleDb {} sampleDesign drawnBox = .ok j ∧ k + k' ≤ 2 ∧ j.lines.length + k + k' = 2 := by
  obtain ⟨j, k, k', h1, h2, -, h4, -⟩ := C70_removed sampleDb sampleDb_sane {} sampleDesign sampleDesign_recognisable drawnBox 2 drawnTexts _
    [lit "   ab  ", lit "  cd   "] drawnBox_around rfl rfl (by
      intro x t u h1 h2
      rcases x with _ | _ | x
      · obtain rfl := Option.some.inj h1
        obtain rfl := Option.some.inj h2
        exact Spec.Text.plain (by decide)
      · obtain rfl := Option.some.inj h1
        obtain rfl := Option.some.inj h2
        exact Spec.Text.plain (by decide)
      · simp at h2)
  exact ⟨j, k, k', h1, h2, h4⟩

/-- what is left of it -/
example : (match removeBox sampleDb {} sampleDesign drawnBox with
    | .ok j => decide (j.lines.map Line.text = [some (fromAscii (lit "   ab  ")), some (fromAscii (lit "  cd   "))])
    | _ => false) = true := by decide +kernel

/-- the same box, with the first word in colour -/
def colourTexts : List Str := [lit "  \x1b[31mab\x1b[0m  ", lit " cd   "]

/-- the same box, with the first word in colour -/
def colourBox : Input :=
  { drawnBox with lines := [lit "  ..-=<>=-.", lit "  O|  \x1b[31mab\x1b[0m  )", lit "  || cd   (", lit "  `'######'"].map (fun s => { text := fromUnicode sampleDb s }) }

theorem colour_text : Text (lit "  \x1b[31mab\x1b[0m  ") (lit "  ab  ") :=
  .vis 0x20 (by decide) (.vis 0x20 (by decide) (.esc (lit "\x1b[31m") (.csi 0x5b [0x33, 0x31] 0x6d (.inl rfl) (by decide) (by decide) (by decide))
    (.vis 0x61 (by decide) (.vis 0x62 (by decide) (.esc (lit "\x1b[0m") (.csi 0x5b [0x30] 0x6d (.inl rfl) (by decide) (by decide) (by decide))
      (.vis 0x20 (by decide) (.vis 0x20 (by decide) .nil)))))))

theorem colourBox_around : BoxAround sampleDb sampleDesign 2 colourTexts colourBox.lines where
  count := by decide +kernel
  read := by
    have h : ∀ l ∈ colourBox.lines, (match l.text with
        | some b => decide (fromUnicode sampleDb b.memory = some b)
        | none => false) = true := by decide +kernel
    intro l hl
    have := h l hl
    cases ht : l.text with
    | none => rw [ht] at this; simp at this
    | some b => rw [ht] at this; exact ⟨b, rfl, of_decide_eq_true this⟩
  top := by
    intro y l b hy hl hb
    have hy0 : y = 0 := by have : (sampleDesign.shape NE).height = 1 := by decide
                           omega
    subst hy0
    obtain rfl := Option.some.inj hl
    have := fromUnicode_memory (show fromUnicode sampleDb (lit "  ..-=<>=-.") = some b from hb)
    rw [this]
    exact ⟨1, 1, 1, by unfold OccursIn; decide +kernel, by unfold OccursIn; decide +kernel, by unfold OccursIn; decide +kernel, by decide +kernel⟩
  body := by
    intro k l b m hm hl hb
    have hk : k < 2 := by
      obtain ⟨h, -⟩ := List.getElem?_eq_some_iff.1 hm
      exact h
    rcases (by omega : k = 0 ∨ k = 1) with rfl | rfl
    · obtain rfl := Option.some.inj hm
      obtain rfl := Option.some.inj hl
      have := fromUnicode_memory (show fromUnicode sampleDb (lit "  O|  \x1b[31mab\x1b[0m  )") = some b from hb)
      rw [this]
      exact ⟨WNW, by decide, E, by decide, by decide +kernel, by decide +kernel, fromAscii (lit "O|"), by decide +kernel, fromAscii (lit ")"),
        by decide +kernel, by decide +kernel⟩
    · obtain rfl := Option.some.inj hm
      obtain rfl := Option.some.inj hl
      have := fromUnicode_memory (show fromUnicode sampleDb (lit "  || cd   (") = some b from hb)
      rw [this]
      exact ⟨W, by decide, E, by decide, by decide +kernel, by decide +kernel, fromAscii (lit "||"), by decide +kernel, fromAscii (lit "("),
        by decide +kernel, by decide +kernel⟩
  bottom := by
    intro y l b hy hl hb
    have hy0 : y = 0 := by have : (sampleDesign.shape SE).height = 1 := by decide
                           omega
    subst hy0
    obtain rfl := Option.some.inj hl
    have := fromUnicode_memory (show fromUnicode sampleDb (lit "  `'######'") = some b from hb)
    rw [this]
    exact ⟨0, 6, 0, by unfold OccursIn; decide +kernel, by unfold OccursIn; decide +kernel, by unfold OccursIn; decide +kernel, by decide +kernel⟩
  padded := by decide +kernel
  texts := by
    intro m hm
    simp only [colourTexts, List.mem_cons, List.not_mem_nil, or_false] at hm
    rcases hm with rfl | rfl
    · exact ⟨_, colour_text, by unfold NarrowBlanks; decide +kernel⟩
    · exact ⟨_, Spec.Text.plain (by decide), by unfold NarrowBlanks; decide +kernel⟩
  allowed := by unfold Forbidden; decide +kernel
  kept := by
    intro m hm
    simp only [colourTexts, List.mem_cons, List.not_mem_nil, or_false] at hm
    rcases hm with rfl | rfl
    · exact ⟨.inr ⟨[], 0x20, lit "\x1b[31mab\x1b[0m  ", by decide, by decide, .inl rfl⟩,
        backKept_vis (p := lit "  \x1b[31mab\x1b[0m ") (u := lit "  ab ") (c := 0x20)
          (.vis 0x20 (by decide) (.vis 0x20 (by decide) (.esc (lit "\x1b[31m") (.csi 0x5b [0x33, 0x31] 0x6d (.inl rfl) (by decide) (by decide) (by decide))
            (.vis 0x61 (by decide) (.vis 0x62 (by decide) (.esc (lit "\x1b[0m") (.csi 0x5b [0x30] 0x6d (.inl rfl) (by decide) (by decide) (by decide))
              (.vis 0x20 (by decide) .nil))))))) (by decide)⟩
    · exact ⟨frontKept_plain (by decide), backKept_plain (by decide)⟩

example : ∃ j k k', removeBox sampleDb {} sampleDesign colourBox = .ok j ∧ k + k' ≤ 2 ∧ j.lines.length + k + k' = 2 := by
  obtain ⟨j, k, k', h1, h2, -, h4, -⟩ := C70_removed sampleDb sampleDb_sane {} sampleDesign sampleDesign_recognisable colourBox 2 colourTexts _
    [lit "   ab  ", lit "  cd   "] colourBox_around rfl rfl (by
      intro x t u h1 h2
      rcases x with _ | _ | x
      · obtain rfl := Option.some.inj h1
        obtain rfl := Option.some.inj h2
        exact .vis 0x20 (by decide) colour_text
      · obtain rfl := Option.some.inj h1
        obtain rfl := Option.some.inj h2
        exact Spec.Text.plain (by decide)
      · simp at h2)
  exact ⟨j, k, k', h1, h2, h4⟩

/-- the colours are kept -/
example : (match removeBox sampleDb {} sampleDesign colourBox with
    | .ok j => decide (j.lines.map (fun l => l.text.map Bxs.memory) = [some (lit "   \x1b[31mab\x1b[0m  "), some (lit "  cd   ")])
    | _ => false) = true := by decide +kernel

end Boxes
