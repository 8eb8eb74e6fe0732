import Verif.Spec.Edited
import Verif.Props.Pipe

set_option linter.unusedSimpArgs false

namespace Boxes
open Boxes.Spec ShapeName

/-- as many blank lines are dropped as there are, if no more than allowed -/
theorem dropped_all {db : CharDb} {a k : Nat} {limit : Option Nat} (hlim : ∀ m, limit = some m → a ≤ m) {ls : List Str} {t : Str}
    (h : BlankLinesDropped db limit ls k) (hb : ∀ (x : Nat) s, x < a → ls[x]? = some s → BlankText db s) (h0 : ls[a]? = some t) (ht : ¬ BlankText db t) : k = a := by
  have hlt : a < ls.length := (List.getElem?_eq_some_iff.1 h0).1
  have h1 : ¬ a < k := fun hk => ht (h.blank a t hk h0)
  have h2 : ¬ k < a := by
    intro hk
    rcases h.most (by omega) with h2 | ⟨t', h2, h3⟩
    · have := hlim k h2; omega
    · exact h3 (hb k t' hk h2)
  omega

/-- the rows of an edited box as the program has them in memory -/
theorem edited_rows {db : CharDb} (hdb : Sane db) {d : Design} (hd : Restorable db d) {ind lp : Nat} {ts : List Str} {rows : List (Str × Str)}
    (hts : ∀ t ∈ ts, ∀ c ∈ t, CleanChar db c) (h : EditedBox db d ind lp ts (rows.map Prod.fst)) :
    ∃ (e : Nat → Nat) (out : List (Bxs × Str)), out.map (fun p => (p.1.memory, p.2)) = rows ∧
      DrawnRows db d ind (fun v => spaces lp ++ v ++ spaces (0 - columns db v)) (ts.mapIdx (fun k t => t ++ spaces (e k))) out := by
  have hbody : ∀ k, ∃ e, ∀ t row, ts[k]? = some t → (rows.map Prod.fst)[(d.shape NE).height + k]? = some row →
      BodyRow db d ind (spaces lp ++ t ++ spaces e) row := by
    intro k
    cases hk : ts[k]? with
    | none => exact ⟨0, by intro t row ht; simp at ht⟩
    | some t =>
      cases hr : (rows.map Prod.fst)[(d.shape NE).height + k]? with
      | none => exact ⟨0, by intro t row _ hr; simp at hr⟩
      | some row =>
        obtain ⟨e, he⟩ := h.body k t row hk hr
        refine ⟨e, ?_⟩
        intro t' row' e1 e2
        obtain rfl := Option.some.inj e1
        obtain rfl := Option.some.inj e2
        exact he
  obtain ⟨e, he⟩ := Classical.axiomOfChoice hbody
  have hchar : ∀ p ∈ rows, ∀ c ∈ p.1, CleanChar db c := by
    intro p hp
    obtain ⟨x, hx⟩ := List.getElem?_of_mem hp
    have hx' : (rows.map Prod.fst)[x]? = some p.1 := by rw [List.getElem?_map, hx]; rfl
    have hlt := (List.getElem?_eq_some_iff.1 hx').1
    have hcount := h.count
    by_cases g1 : x < (d.shape NE).height
    · exact edgeRow_all hd.recognisable.ready.good (cleanChar_space hdb) (cleanChar_shape hd) (h.top x _ g1 hx')
    · by_cases g2 : x < (d.shape NE).height + ts.length
      · have hk : x - (d.shape NE).height < ts.length := by omega
        have hg := List.getElem?_eq_getElem hk
        refine bodyRow_all (cleanChar_space hdb) (cleanChar_shape hd) ?_ (he (x - (d.shape NE).height) _ p.1 hg (by rw [← hx']; congr 1; omega))
        intro c hc
        simp only [List.mem_append] at hc
        rcases hc with (hc | hc) | hc
        · exact spaces_all (cleanChar_space hdb) _ c hc
        · exact hts _ (List.mem_of_getElem? hg) c hc
        · exact spaces_all (cleanChar_space hdb) _ c hc
      · exact edgeRow_all hd.recognisable.ready.good (cleanChar_space hdb) (cleanChar_shape hd)
          (h.bottom (x - ((d.shape NE).height + ts.length)) _ (by omega) (by rw [← hx']; congr 1; omega))
  have hout : ∀ rows : List (Str × Str), (∀ p ∈ rows, ∀ c ∈ p.1, CleanChar db c) → ∃ out : List (Bxs × Str), out.map (fun p => (p.1.memory, p.2)) = rows ∧
      ∀ p ∈ out, fromUnicode db p.1.memory = some p.1 := by
    intro rows
    induction rows with
    | nil => intro _; exact ⟨[], rfl, by simp⟩
    | cons p ps ih =>
      intro hp
      obtain ⟨out, h1, h2⟩ := ih (fun q hq => hp q (by simp [hq]))
      obtain ⟨b, h3, -⟩ := fromUnicode_total db p.1 (fun c hc => (hp p (by simp) c hc).2.1)
      have h4 := (C01_metrics db (Text.plain (fun c hc => (hp p (by simp) c hc).1)) h3).1
      refine ⟨(b, p.2) :: out, by simp [h1, h4], ?_⟩
      intro q hq
      rcases List.mem_cons.1 hq with rfl | hq
      · simp only; rw [h4, h3]
      · exact h2 q hq
  obtain ⟨out, h1, h2⟩ := hout rows hchar
  have hrow : ∀ (x : Nat) p, out[x]? = some p → (rows.map Prod.fst)[x]? = some p.1.memory := by
    intro x p hx
    rw [← h1, List.map_map, List.getElem?_map, hx]; rfl
  refine ⟨e, out, h1, ?_, h2, ?_, ?_, ?_⟩
  · have := h.count
    rw [← h1] at this
    simpa using this
  · intro y p hy hp
    exact h.top y _ hy (hrow y p hp)
  · intro k p v hv hp
    rw [List.getElem?_mapIdx] at hv
    cases hk : ts[k]? with
    | none => rw [hk] at hv; simp at hv
    | some t =>
      rw [hk] at hv
      obtain rfl := Option.some.inj hv
      have := he k t _ hk (hrow _ p hp)
      simp only [Nat.zero_sub]
      simpa [spaces] using this
  · intro y p hy hp
    rw [List.length_mapIdx] at hp
    exact h.bottom y _ hy (hrow _ p hp)

/-- the text of an edited box comes back when the box is removed -/
theorem edited_back (db : CharDb) (hdb : Sane db) (opt : Opt) (ho : PlainRemoving opt)
    (d d' : Design) (hd : Restorable db d) (hd' : GoodDesign db d') (hshape : d'.shape = d.shape) (junk ind above below : Nat)
    (texts : List Str) (htexts : ∀ t ∈ texts, (∀ c ∈ t, CleanChar db c) ∧ ∃ p c, t = p ++ [c] ∧ ¬ Blank db c) (hne : texts ≠ [])
    (rows : List (Str × Str)) (hrows : EditedBox db d ind (wanted opt.padding.left d'.padding.left) (List.replicate above [] ++ texts ++ List.replicate below []) (rows.map Prod.fst))
    (hend : ∀ p ∈ rows, LineEnd p.2) (hshort : ∀ p ∈ rows, p.1.length < 16370)
    (hkill : opt.killblank ≠ 0 ∨ (opt.killblank = 0 ∧ opt.mend ≠ 0 ∧ opt.reqheight = 0 ∧
      above ≤ wanted opt.padding.top d'.padding.top ∧ below ≤ wanted opt.padding.bottom d'.padding.bottom)) :
    ∃ raw i j back, readAllInput db opt junk (rows.map (fun p => p.1 ++ p.2)) = .ok raw ∧ analyzeInput db opt d' [] raw = .ok i ∧
      handleRemoveBox db opt (adjustSizeAndPadding opt d' i) [] i = .ok (j, back) ∧ LeftTexts db j back ∧
      (j.finalNewline = true ↔ ∃ p, rows.getLast? = some p ∧ p.2 ≠ []) ∧ back.length = texts.length ∧
      ∀ (x : Nat) t, texts[x]? = some t → ∃ p, back[x]? = some p ∧ p.1 = spaces (restored opt ind) ++ t ∧
        p.2 = (if x + 1 = texts.length ∧ j.finalNewline = false then [] else opt.eol) := by
  obtain ⟨ts, hts⟩ : ∃ ts, ts = List.replicate above ([] : Str) ++ texts ++ List.replicate below [] := ⟨_, rfl⟩
  obtain ⟨lp, hlp⟩ : ∃ lp, lp = wanted opt.padding.left d'.padding.left := ⟨_, rfl⟩
  rw [← hts, ← hlp] at hrows
  have hclean : ∀ t ∈ ts, ∀ c ∈ t, CleanChar db c := by
    intro t ht c hc
    rw [hts] at ht
    simp only [List.mem_append, List.mem_replicate] at ht
    rcases ht with (⟨-, rfl⟩ | ht) | ⟨-, rfl⟩
    · simp at hc
    · exact (htexts t ht).1 c hc
    · simp at hc
  obtain ⟨e, out, h1, h2⟩ := edited_rows hdb hd hclean hrows
  have hclean2 : ∀ v ∈ ts.mapIdx (fun k t => t ++ spaces (e k)), ∀ c ∈ v, CleanChar db c := by
    intro v hv c hc
    obtain ⟨x, hx⟩ := List.getElem?_of_mem hv
    rw [List.getElem?_mapIdx] at hx
    cases hk : ts[x]? with
    | none => rw [hk] at hx; simp at hx
    | some t =>
      rw [hk] at hx
      obtain rfl := Option.some.inj hx
      rcases List.mem_append.1 hc with hc | hc
      · exact hclean t (List.mem_of_getElem? hk) c hc
      · exact spaces_all (cleanChar_space hdb) _ c hc
  have hmem : ∀ p ∈ out, (p.1.memory, p.2) ∈ rows := fun p hp => by rw [← h1]; exact List.mem_map.2 ⟨p, hp, rfl⟩
  obtain ⟨raw, i, i1, i2, i3, i4, -, -, i6⟩ := drawn_reread hdb ho.removes ho.tabstop junk d' hd h2 hclean2
    (fun p hp => hend _ (hmem p hp)) (fun p hp => hshort _ (hmem p hp))
  have hpieces : out.map (fun p => p.1.memory ++ p.2) = rows.map (fun p => p.1 ++ p.2) := by rw [← h1, List.map_map]; rfl
  rw [hpieces] at i1
  obtain ⟨p1, p2, p3, -⟩ := C21_padding opt d' i
  have hpt : opt.reqheight = 0 → (adjustSizeAndPadding opt d' i).padding.top = wanted opt.padding.top d'.padding.top ∧
      (adjustSizeAndPadding opt d' i).padding.bottom = wanted opt.padding.bottom d'.padding.bottom := by
    intro h0
    by_cases h1 : i.lines.length + ((d'.shape NW).height + (d'.shape SW).height) + (wanted opt.padding.top d'.padding.top + wanted opt.padding.bottom d'.padding.bottom) ≤ d'.minheight ∨
        wanted opt.padding.top d'.padding.top + wanted opt.padding.bottom d'.padding.bottom = 0
    · exact ⟨(p1.enough h1).1, (p1.enough h1).2.1⟩
    · have := p1.grow (by omega) (by omega) (by simp [h0])
      exact ⟨this.1, this.2.1⟩
  have hlpad : (adjustSizeAndPadding opt d' i).padding.left = lp := by
    rw [hlp]
    by_cases h1 : i.maxline + ((d'.shape NW).width + (d'.shape NE).width) + (wanted opt.padding.left d'.padding.left + wanted opt.padding.right d'.padding.right) ≤ d'.minwidth ∨
        wanted opt.padding.left d'.padding.left + wanted opt.padding.right d'.padding.right = 0
    · exact (p2.enough h1).1
    · exact (p2.grow (by omega) (by omega) (by have := ho.reqwidth; simp [this])).1
  have hshape3 : (adjustSizeAndPadding opt d' i).shape = d.shape := p3.trans hshape
  have hbox := i6 (adjustSizeAndPadding opt d' i) hshape3 hlpad
  obtain ⟨us, hus⟩ : ∃ us, us = ts.mapIdx (fun k t => spaces (restored opt ind) ++ t ++ spaces (e k)) := ⟨_, rfl⟩
  obtain ⟨j, back, k, k', b1, bl, bf, b2, b3, b4, b5, b6⟩ := C70_printed_plain db hdb opt ho.tabs ho.tabstop ho.mend _
    (recognisable_shape hd.recognisable hshape3 (C20_adjusted_design db opt d' hd' i).2) i ind _ us hbox (by
      intro m hm c hc
      obtain ⟨v, hv, rfl⟩ := List.mem_map.1 hm
      simp only [Nat.zero_sub, List.mem_append] at hc
      rcases hc with (hc | hc) | hc
      · exact (spaces_all (cleanChar_space hdb) _ c hc).1
      · exact (hclean2 v hv c hc).1
      · simp [spaces] at hc) (by
      rw [hus]
      apply List.ext_getElem?
      intro x
      rw [List.getElem?_map, List.getElem?_map, List.getElem?_mapIdx, List.getElem?_mapIdx]
      cases hx : ts[x]? with
      | none => rfl
      | some t =>
        simp only [Option.map_some, Option.some.injEq]
        rw [i3, hlpad, List.append_assoc (spaces lp), List.drop_append_of_le_length (by simp [spaces])]
        simp [spaces])
  have hul : us.length = above + texts.length + below := by rw [hus, List.length_mapIdx, hts]; simp; omega
  have hget : ∀ (x : Nat) t, texts[x]? = some t → us[above + x]? = some (spaces (restored opt ind) ++ t ++ spaces (e (above + x))) := by
    intro x t hx
    have hlt := (List.getElem?_eq_some_iff.1 hx).1
    have : ts[above + x]? = some t := by
      rw [hts, List.append_assoc, List.getElem?_append_right (by simp)]
      simp only [List.length_replicate, Nat.add_sub_cancel_left]
      rw [List.getElem?_append_left hlt, hx]
    rw [hus, List.getElem?_mapIdx, this]; rfl
  have hblank : ∀ (x : Nat) s, (x < above ∨ above + texts.length ≤ x) → us[x]? = some s → BlankText db s := by
    intro x s hx hs c hc
    rw [hus, List.getElem?_mapIdx] at hs
    cases hk : ts[x]? with
    | none => rw [hk] at hs; simp at hs
    | some t =>
      rw [hk] at hs
      obtain rfl := Option.some.inj hs
      have : t = [] := by
        rw [hts, List.append_assoc] at hk
        rcases hx with hx | hx
        · rw [List.getElem?_append_left (by simpa using hx)] at hk
          exact List.eq_of_mem_replicate (List.mem_of_getElem? hk)
        · rw [← List.append_assoc, List.getElem?_append_right (by simp; omega)] at hk
          exact List.eq_of_mem_replicate (List.mem_of_getElem? hk)
      subst this
      simp only [List.append_nil, List.mem_append] at hc
      exact .inl (hc.elim (spaces_blank hdb _ c) (spaces_blank hdb _ c))
  have hnonblank : ∀ t ∈ texts, ∀ a b, ¬ BlankText db (spaces a ++ t ++ spaces b) := by
    intro t ht a b hb
    obtain ⟨hc, p, c, rfl, h3⟩ := htexts t ht
    rcases hb c (by simp) with h | h
    · exact h3 h
    · exact (hc c (by simp)).2.2.2.2.2 h
  have hlen : 0 < texts.length := List.length_pos_iff.2 hne
  obtain ⟨l1, l2, hl1, hl2, d1, d2⟩ : ∃ l1 l2, (∀ m, l1 = some m → above ≤ m) ∧ (∀ m, l2 = some m → below ≤ m) ∧
      BlankLinesDropped db l1 us k ∧ BlankLinesDropped db l2 (us.drop k).reverse k' := by
    rcases hkill with h0 | ⟨h0, h1, h5, h6, h7⟩
    · exact ⟨none, none, by simp, by simp, b3 h0⟩
    · obtain ⟨q1, q2⟩ := b5 h0 h1
      refine ⟨_, _, ?_, ?_, q1, q2⟩
      · intro m hm
        rw [(hpt h5).1] at hm
        have := Option.some.inj hm; omega
      · intro m hm
        rw [(hpt h5).2] at hm
        have := Option.some.inj hm; omega
  have hk : k = above := by
    have hg := List.getElem?_eq_getElem hlen
    refine dropped_all hl1 d1 (fun x s hx => hblank x s (.inl hx)) (hget 0 _ hg) (hnonblank _ (List.getElem_mem hlen) _ _)
  subst hk
  have hk' : k' = below := by
    have hlast : texts.length - 1 < texts.length := by omega
    have hg := List.getElem?_eq_getElem hlast
    have hrl : (us.drop k).length = texts.length + below := by rw [List.length_drop]; omega
    refine dropped_all hl2 d2 ?_ (t := spaces (restored opt ind) ++ texts[texts.length - 1] ++ spaces (e (k + (texts.length - 1)))) ?_ (hnonblank _ (List.getElem_mem hlast) _ _)
    · intro x s hx hs
      rw [List.getElem?_reverse (by omega), List.getElem?_drop] at hs
      exact hblank _ s (.inr (by omega)) hs
    · rw [List.getElem?_reverse (by omega), List.getElem?_drop, ← hget _ _ hg]
      congr 1; omega
  subst hk'
  have hb : back.length = texts.length := by omega
  refine ⟨raw, i, j, back, i1, i2, b1, bl, ?_, hb, ?_⟩
  · rw [bf, i4]
    constructor
    · rintro ⟨p, hp, hp2⟩
      refine ⟨(p.1.memory, p.2), ?_, hp2⟩
      rw [← h1, List.getLast?_map, hp]; rfl
    · rintro ⟨p, hp, hp2⟩
      rw [← h1, List.getLast?_map] at hp
      cases hq : out.getLast? with
      | none => rw [hq] at hp; simp at hp
      | some q =>
        rw [hq] at hp
        obtain rfl := Option.some.inj hp
        exact ⟨q, rfl, hp2⟩
  · intro x t hx
    have hlt := (List.getElem?_eq_some_iff.1 hx).1
    have hg := List.getElem?_eq_getElem (l := back) (i := x) (by omega)
    obtain ⟨t', g1, g2, g3, g4⟩ := b6 x _ hg
    rw [hget x t hx] at g1
    obtain rfl := Option.some.inj g1
    obtain ⟨hc, p, c, rfl, h3⟩ := htexts t (List.mem_of_getElem? hx)
    refine ⟨_, hg, ?_, ?_⟩
    · rw [g3 ⟨c, by simp, h3⟩]
      have := dropTrailing_app db (spaces (restored opt ind) ++ p) c (spaces (e (k + x))) h3 (spaces_blank hdb _)
      simp only [List.append_assoc, List.cons_append, List.nil_append] at this ⊢
      rw [this]
    · rw [g4, hb, bf]

/-- a plain line with an indentation: what is behind the indentation -/
theorem plain_inner {db : CharDb} (hdb : Sane db) (hbr : BreaksSane db) {r : Nat} {t : Str} (h : PlainLine db (spaces r ++ t)) (hne : spaces r ++ t ≠ []) :
    (∀ c ∈ t, CleanChar db c) ∧ ∃ p c, t = p ++ [c] ∧ ¬ Blank db c := by
  refine ⟨fun c hc => cleanChar_plain h c (List.mem_append_right _ hc), ?_⟩
  obtain ⟨z, hz, hnb⟩ := plain_nonblank h hne
  have hzt : z ∈ t := by
    rcases List.mem_append.1 hz with hz | hz
    · exact absurd (spaces_blank hdb _ z hz) hnb
    · exact hz
  rcases List.eq_nil_or_concat t with h9 | ⟨a, c, h9⟩
  · rw [h9] at hzt; simp at hzt
  · rw [List.concat_eq_append] at h9
    refine ⟨a, c, h9, plain_last hbr h (p := spaces r ++ a) ?_⟩
    rw [h9, List.append_assoc]

end Boxes
