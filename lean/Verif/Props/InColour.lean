import Verif.Lemmas.InColour

/-!
# Removing a box in colour (C83)
-/
namespace Boxes
open Spec ShapeName
set_option linter.unusedSimpArgs false

/-- C83: removing a box in colour.  Whether the box shows its colours or not, removing it with the same design leaves the texts it was drawn around, without
the left padding, and with the indentation restored if so requested. -/
theorem C83_removed (db : CharDb) (hdb : Sane db) (hesc : db.ucBlank 0x1b = false) (opt : Opt) (d e : Design) (hd : InColour db d e) (i : Input) (ind : Nat)
    (ms ts us : List Str) (hbox : ColouredBox db d e ind ms i.lines)
    (hts : ts = ms.map (fun m => spaces (restored opt i.indent) ++ m.drop e.padding.left))
    (hlu : us.length = ts.length) (hus : ∀ (x : Nat) t u, ts[x]? = some t → us[x]? = some u → Text t u) :
    ∃ j k k', removeBox db opt e i = .ok j ∧ k + k' ≤ ts.length ∧
      (if opt.killblank ≠ 0 ∨ opt.mend ≠ 0 then
        BlankLinesDropped db (maxRemovable opt e.padding.top) us k ∧ BlankLinesDropped db (maxRemovable opt e.padding.bottom) (us.drop k).reverse k'
       else k = 0 ∧ k' = 0) ∧
      j.lines.length + k + k' = ts.length ∧ j.finalNewline = i.finalNewline ∧
      ∀ (x : Nat) l, j.lines[x]? = some l → ∃ t l0, ts[k + x]? = some t ∧ i.lines[(e.shape NE).height + k + x]? = some l0 ∧
        l = { l0 with text := fromUnicode db t } := by
  cases hc : inputColoured i.lines with
  | true => exact colouredBox_removed db hdb hesc opt d e hd i ind ms ts us hbox hc hts hlu hus
  | false =>
    have hb := colouredBox_plain hdb hd hbox hc
    have hrc := hd.plain
    obtain ⟨m, hm⟩ := designIsMono_total hrc.ready
    obtain ⟨m', hm'⟩ := designIsMono_total hd.ready
    obtain ⟨p, hp⟩ := inputIsMono_total (boxAround_ready hrc hb).1
    have hp' := C27_input _ _ hp
    rw [hc] at hp'
    rw [removeBox_same hdb hrc.ready hd.ready hd.same hm hm' (by rw [hp, hp']; rfl), hd.same.padding, (hd.same.shapes NE).height]
    rw [hd.same.padding] at hts
    exact C70_removed db hdb opt d hrc i ind ms ts us hb hts hlu hus

/-! ## Examples -/

theorem tintedDesign_inColour : InColour sampleDb frDesign.core tintedDesign.core where
  plain := frDesign_restorable.recognisable
  same := tintedDesign_recoloured
  colour := by
    have h : ∃ n ∈ [W], Present (tintedDesign.core.shape n) ∧ ∃ b ∈ (tintedDesign.core.shape n).lines, 0x1b ∈ b.memory := by
      unfold Present; decide +kernel
    obtain ⟨n, -, h⟩ := h
    exact ⟨n, h⟩
  clean := by
    have h : ∀ n ∈ [NW, NNW, N, NNE, NE, ENE, E, ESE, SE, SSE, S, SSW, SW, WSW, W, WNW], ∀ b ∈ (tintedDesign.core.shape n).lines, ∀ c ∈ b.memory,
        c ≠ 0x09 ∧ c ≠ 0x0a ∧ c ≠ 0x0d ∧ ¬ Forbidden sampleDb c := by unfold Forbidden; decide +kernel
    exact fun n _ => h n (by cases n <;> decide)
  west := by
    have red : EscSeq (lit "\x1b[31m") := csi_sgr (params := [0x33, 0x31]) (by decide)
    have h : ∀ n ∈ [WNW, W, WSW], ∀ b ∈ (tintedDesign.core.shape n).lines, b.memory = [] ++ (lit "\x1b[31m" ++ 0x7c :: lit "\x1b[0m") := by decide +kernel
    intro n hn _ b hb
    exact ⟨[], _, _, _, h n hn b hb, by simp, .inr ⟨red, red_not_reset⟩, by decide, by decide +kernel⟩
  east := by
    have red : EscSeq (lit "\x1b[31m") := csi_sgr (params := [0x33, 0x31]) (by decide)
    have off : EscSeq (lit "\x1b[0m") := csi_sgr (params := [0x30]) (by decide)
    have h : ∀ n ∈ [ENE, E, ESE], ∀ b ∈ (tintedDesign.core.shape n).lines, b.memory = lit "\x1b[31m" ++ 0x21 :: lit "\x1b[0m" := by decide +kernel
    intro n hn _ b hb
    exact ⟨_, [], _, _, h n hn b hb, .esc _ red .nil, by decide, by decide +kernel, .esc _ off .nil⟩
  westAlike := by
    have h : ∀ n ∈ [WNW, W, WSW], ∀ n' ∈ [WNW, W, WSW], ∀ b ∈ (tintedDesign.core.shape n).lines, ∀ b' ∈ (tintedDesign.core.shape n').lines,
        b.memory.length = b'.memory.length ∧ leadingBlanks sampleDb b.memory = leadingBlanks sampleDb b'.memory := by decide +kernel
    exact fun n hn n' hn' _ _ => h n hn n' hn'
  eastAlike := by
    have h : ∀ n ∈ [ENE, E, ESE], ∀ n' ∈ [ENE, E, ESE], ∀ b ∈ (tintedDesign.core.shape n).lines, ∀ b' ∈ (tintedDesign.core.shape n').lines,
        b.memory.length = b'.memory.length := by decide +kernel
    exact fun n hn n' hn' _ _ => h n hn n' hn'
  room := by
    have h : ∀ n ∈ [WNW, W, WSW, ENE, E, ESE], ∀ b ∈ (tintedDesign.core.shape n).lines, (tintedDesign.core.shape n).width ≤ b.memory.length := by decide +kernel
    exact fun n hn _ => h n hn

/-- a box in colour around the texts `ab` and `\e[31mc\e[0m `, as read -/
def tintedTexts : List Str := [lit "ab", lit "\x1b[31mc\x1b[0m "]

def tintedRows : List Str :=
  [lit "\x1b[31m+\x1b[0m--\x1b[31m*\x1b[0m", lit "\x1b[31m|\x1b[0mab\x1b[31m!\x1b[0m", lit "\x1b[31m|\x1b[0m\x1b[31mc\x1b[0m \x1b[31m!\x1b[0m",
    lit "+\x1b[31m=\x1b[0m\x1b[31m=\x1b[0m+"]

def tintedBox : Input := { lines := tintedRows.map (fun s => { text := fromUnicode sampleDb s }), finalNewline := true }

theorem tintedBox_row {x : Nat} {l : Line} {b : Bxs} (hl : tintedBox.lines[x]? = some l) (hb : l.text = some b) : tintedRows[x]? = some b.memory := by
  have : tintedBox.lines[x]? = tintedRows[x]?.map (fun s => ({ text := fromUnicode sampleDb s } : Line)) := List.getElem?_map
  rw [this] at hl
  cases h : tintedRows[x]? with
  | none => rw [h] at hl; simp at hl
  | some s =>
    rw [h] at hl
    obtain rfl := Option.some.inj hl
    rw [fromUnicode_memory hb]

theorem tintedBox_around : ColouredBox sampleDb frDesign.core tintedDesign.core 0 tintedTexts tintedBox.lines where
  count := by decide +kernel
  read := by
    have h : ∀ l ∈ tintedBox.lines, (match l.text with
        | some b => decide (fromUnicode sampleDb b.memory = some b)
        | none => false) = true := by decide +kernel
    intro l hl
    have := h l hl
    cases ht : l.text with
    | none => rw [ht] at this; simp at this
    | some b => rw [ht] at this; exact ⟨b, rfl, of_decide_eq_true this⟩
  allowed := by
    have h : ∀ s ∈ tintedRows, ∀ c ∈ s, ¬ Forbidden sampleDb c := by unfold Forbidden; decide +kernel
    intro l hl b hb
    obtain ⟨x, hx⟩ := List.getElem?_of_mem hl
    exact h _ (List.mem_of_getElem? (tintedBox_row hx hb))
  top := by
    have red : EscSeq (lit "\x1b[31m") := csi_sgr (params := [0x33, 0x31]) (by decide)
    have off : EscSeq (lit "\x1b[0m") := csi_sgr (params := [0x30]) (by decide)
    intro y l b hy hl hb
    have hy0 : y = 0 := by
      have : (frDesign.core.shape NE).height = 1 := by decide +kernel
      omega
    subst hy0
    rw [← Option.some.inj (tintedBox_row hl hb)]
    exact ⟨lit "+--*", .esc _ red (.vis 0x2b (by decide) (.esc _ off (.vis 0x2d (by decide) (.vis 0x2d (by decide) (.esc _ red (.vis 0x2a (by decide) (.esc _ off .nil))))))),
      0, 2, 0, by unfold OccursIn; decide +kernel, by unfold OccursIn; decide +kernel, by unfold OccursIn; decide +kernel, by decide +kernel⟩
  body := by
    intro k l b m hm hl hb
    have hr := tintedBox_row hl hb
    have hh : (frDesign.core.shape NE).height = 1 := by decide +kernel
    rw [hh] at hr
    have hk : k < 2 := (List.getElem?_eq_some_iff.1 hm).1
    have hsh : ∃ w ∈ (tintedDesign.core.shape W).lines, ∃ x ∈ (tintedDesign.core.shape E).lines, w.memory = lit "\x1b[31m|\x1b[0m" ∧ x.memory = lit "\x1b[31m!\x1b[0m" := by
      decide +kernel
    have hp : Present (tintedDesign.core.shape W) ∧ Present (tintedDesign.core.shape E) := by unfold Present; decide +kernel
    obtain ⟨w, hw, x, hx, ew, ex⟩ := hsh
    refine ⟨W, by decide, E, by decide, hp.1, hp.2, w, hw, x, hx, ?_⟩
    rw [ew, ex]
    rcases (by omega : k = 0 ∨ k = 1) with rfl | rfl
    · obtain rfl := Option.some.inj hm
      rw [← Option.some.inj hr]; decide
    · obtain rfl := Option.some.inj hm
      rw [← Option.some.inj hr]; decide
  bottom := by
    have red : EscSeq (lit "\x1b[31m") := csi_sgr (params := [0x33, 0x31]) (by decide)
    have off : EscSeq (lit "\x1b[0m") := csi_sgr (params := [0x30]) (by decide)
    intro y l b hy hl hb
    have hy0 : y = 0 := by
      have : (frDesign.core.shape SE).height = 1 := by decide +kernel
      omega
    subst hy0
    have hr := tintedBox_row hl hb
    have hh : (frDesign.core.shape NE).height = 1 := by decide +kernel
    rw [hh] at hr
    rw [← Option.some.inj hr]
    exact ⟨lit "+==+", .vis 0x2b (by decide) (.esc _ red (.vis 0x3d (by decide) (.esc _ off (.esc _ red (.vis 0x3d (by decide) (.esc _ off (.vis 0x2b (by decide) .nil))))))),
      0, 2, 0, by unfold OccursIn; decide +kernel, by unfold OccursIn; decide +kernel, by unfold OccursIn; decide +kernel, by decide +kernel⟩
  padded := by
    have h : tintedDesign.core.padding.left = 0 := by decide +kernel
    rw [h]
    exact fun m _ => ⟨Nat.zero_le _, by simp⟩
  texts := by
    have red : EscSeq (lit "\x1b[31m") := csi_sgr (params := [0x33, 0x31]) (by decide)
    have off : EscSeq (lit "\x1b[0m") := csi_sgr (params := [0x30]) (by decide)
    intro m hm
    simp only [tintedTexts, List.mem_cons, List.not_mem_nil, or_false] at hm
    rcases hm with rfl | rfl
    · exact ⟨lit "ab", .plain (by decide), by unfold NarrowBlanks; decide +kernel⟩
    · exact ⟨lit "c ", .esc _ red (.vis 0x63 (by decide) (.esc _ off (.vis 0x20 (by decide) .nil))), by unfold NarrowBlanks; decide +kernel⟩

/-- it is removed, and its texts are left -/
example : ∃ j, removeBox sampleDb { r := true, killblank := 0, mend := 0 } tintedDesign.core tintedBox = .ok j ∧
    j.lines.map (fun l => l.text) = [fromUnicode sampleDb (lit "ab"), fromUnicode sampleDb (lit "\x1b[31mc\x1b[0m ")] ∧ j.finalNewline = true := by
  have red : EscSeq (lit "\x1b[31m") := csi_sgr (params := [0x33, 0x31]) (by decide)
  have off : EscSeq (lit "\x1b[0m") := csi_sgr (params := [0x30]) (by decide)
  have hpad : tintedDesign.core.padding.left = 0 := by decide +kernel
  obtain ⟨j, k, k', h1, h2, h3, h4, h5, h6⟩ := C83_removed sampleDb sampleDb_sane (by decide) { r := true, killblank := 0, mend := 0 } frDesign.core tintedDesign.core tintedDesign_inColour tintedBox 0
    tintedTexts tintedTexts [lit "ab", lit "c "] tintedBox_around (by rw [hpad]; decide) rfl (by
      intro x t u ht hu
      match x with
      | 0 => obtain rfl := Option.some.inj ht; obtain rfl := Option.some.inj hu; exact .plain (by decide)
      | 1 =>
        obtain rfl := Option.some.inj ht; obtain rfl := Option.some.inj hu
        exact .esc _ red (.vis 0x63 (by decide) (.esc _ off (.vis 0x20 (by decide) .nil)))
      | n + 2 => simp [tintedTexts] at ht)
  rw [if_neg (by decide)] at h3
  obtain ⟨rfl, rfl⟩ := h3
  refine ⟨j, h1, ?_, h5⟩
  apply List.ext_getElem?
  intro x
  have hlen : j.lines.length = 2 := h4
  rw [List.getElem?_map]
  by_cases hx : x < 2
  · obtain ⟨t, l0, g1, -, g3⟩ := h6 x _ (List.getElem?_eq_getElem (by omega))
    rw [List.getElem?_eq_getElem (by omega), Option.map_some, g3]
    rcases (by omega : x = 0 ∨ x = 1) with rfl | rfl
    · obtain rfl := Option.some.inj g1; rfl
    · obtain rfl := Option.some.inj g1; rfl
  · rw [List.getElem?_eq_none (by omega), List.getElem?_eq_none (by simp; omega)]; rfl

end Boxes
