import Verif.Spec.SampleBlock
import Verif.Props.Text
import Verif.Model.Parse
import Verif.Lemmas.Scanner

/-!
# C60: the sample of a design
-/
set_option linter.unusedSimpArgs false
namespace Boxes
open Spec

theorem eols_adjust (eol : Str) (s : Str) : Eols eol s (adjustEols eol s) := by
  fun_induction adjustEols eol s with
  | case1 => exact .nil
  | case2 c h =>
    rcases h with rfl | rfl
    · simpa using Eols.cr (eol := eol) (s := []) (by simp) .nil
    · simpa using Eols.lf (eol := eol) (s := []) .nil
  | case3 c h => exact .char c (fun e => h (Or.inl e)) (fun e => h (Or.inr e)) .nil
  | case4 c d rest h ih => obtain ⟨rfl, rfl⟩ := h; exact .crlf ih
  | case5 c d rest h1 h2 ih =>
    rcases h2 with rfl | rfl
    · refine .cr ?_ ih
      intro r e
      simp at e
      exact h1 ⟨rfl, e.1⟩
    · exact .lf ih
  | case6 c d rest h1 h2 ih => exact .char c (fun e => h2 (Or.inl e)) (fun e => h2 (Or.inr e)) ih

theorem eols_unique {eol s t : Str} (h : Eols eol s t) : ∀ t', Eols eol s t' → t = t' := by
  induction h with
  | nil => intro t' h; cases h; rfl
  | char c h1 h2 _ ih => intro t' h; cases h with
    | char _ _ _ h => rw [ih _ h]
    | crlf _ => exact absurd rfl h1
    | cr _ _ => exact absurd rfl h1
    | lf _ => exact absurd rfl h2
  | crlf _ ih => intro t' h; cases h with
    | char _ h1 _ _ => exact absurd rfl h1
    | crlf h => rw [ih _ h]
    | cr h1 h => exact absurd rfl (h1 _)
  | cr h1 _ ih => intro t' h; cases h with
    | char _ h1 _ _ => exact absurd rfl h1
    | crlf h => exact absurd rfl (h1 _)
    | cr h1 h => rw [ih _ h]
  | lf _ ih => intro t' h; cases h with
    | char _ _ h1 _ => exact absurd rfl h1
    | lf h => rw [ih _ h]

theorem eols_mem {eol s t : Str} (h : Eols eol s t) : ∀ c ∈ t, c ∈ s ∨ c ∈ eol := by
  induction h with
  | nil => simp
  | char c _ _ _ ih =>
    intro x hx
    rcases List.mem_cons.1 hx with rfl | hx
    · simp
    · rcases ih x hx with h | h <;> simp [h]
  | crlf _ ih | cr _ _ ih | lf _ ih =>
    intro x hx
    rcases List.mem_append.1 hx with hx | hx
    · exact Or.inr hx
    · rcases ih x hx with h | h <;> simp [h]

theorem eols_content {eol s t : Str} (h : Eols eol s t) : ∀ c ∈ s, c ≠ '\r'.toNat → c ≠ '\n'.toNat → c ∈ t := by
  induction h with
  | nil => simp
  | char c _ _ _ ih =>
    intro x hx h1 h2
    rcases List.mem_cons.1 hx with rfl | hx
    · simp
    · simp [ih x hx h1 h2]
  | crlf _ ih =>
    intro x hx h1 h2
    rcases List.mem_cons.1 hx with rfl | hx
    · exact absurd rfl h1
    rcases List.mem_cons.1 hx with rfl | hx
    · exact absurd rfl h2
    · simp [ih x hx h1 h2]
  | cr _ _ ih =>
    intro x hx h1 h2
    rcases List.mem_cons.1 hx with rfl | hx
    · exact absurd rfl h1
    · simp [ih x hx h1 h2]
  | lf _ ih =>
    intro x hx h1 h2
    rcases List.mem_cons.1 hx with rfl | hx
    · exact absurd rfl h2
    · simp [ih x hx h1 h2]

theorem isTrimWs_iff (c : Nat) : isTrimWs c = true ↔ EndWhite c := by
  simp [isTrimWs, EndWhite, chNl, chCr, chTab, chSpace]
  omega

/-- characters of a given kind removed at the end -/
theorem dropEnd_eq {p : Nat → Bool} {s r w : Str} (hs : s = r ++ w) (hw : ∀ c ∈ w, p c = true)
    (hr : r = [] ∨ ∃ b c, r = b ++ [c] ∧ p c = false) : (s.reverse.dropWhile p).reverse = r := by
  subst hs
  rw [List.reverse_append, List.dropWhile_append_of_pos (by simpa using hw)]
  rcases hr with rfl | ⟨b, c, rfl, h⟩
  · rfl
  · rw [List.reverse_append, List.reverse_singleton, List.singleton_append, List.dropWhile_cons_of_neg (by simp [h])]
    simp

theorem dropEnd_split (p : Nat → Bool) (s : Str) : ∃ r w, s = r ++ w ∧ (∀ c ∈ w, p c = true) ∧
    (r = [] ∨ ∃ b c, r = b ++ [c] ∧ p c = false) := by
  induction s with
  | nil => exact ⟨[], [], rfl, by simp, Or.inl rfl⟩
  | cons a s ih =>
    obtain ⟨r, w, rfl, hw, hr⟩ := ih
    rcases hr with rfl | ⟨b, c, rfl, h⟩
    · cases ha : p a with
      | true => exact ⟨[], a :: w, rfl, by intro c hc; rcases List.mem_cons.1 hc with rfl | hc; exact ha; exact hw c hc, Or.inl rfl⟩
      | false => exact ⟨[a], w, rfl, hw, Or.inr ⟨[], a, rfl, ha⟩⟩
    · exact ⟨a :: (b ++ [c]), w, rfl, hw, Or.inr ⟨a :: b, c, rfl, h⟩⟩

theorem lineBlank_iff (db : CharDb) (c : Nat) : (db.ucBlank c || c == chCr) = true ↔ LineBlank db c := by
  simp [LineBlank, chCr]

theorem nonblank_found {db : CharDb} (hn : ¬ LineBlank db '\n'.toNat) {p q : Str} {c : Nat} (hp : ∀ x ∈ p, LineBlank db x)
    (hc : ¬ LineBlank db c) (hc' : c ≠ '\n'.toNat) : ∀ (fuel : Nat) (sk res : Str), sk.length < fuel →
    (sk = [] ∨ ∃ s, sk = s ++ ['\n'.toNat]) → (∀ c ∈ sk, LineBlank db c ∨ c = '\n'.toNat) →
    (sk = [] → res = p ++ c :: q) → firstNonblankLine db fuel res (sk ++ (p ++ c :: q)) = p ++ c :: q := by
  intro fuel
  induction fuel with
  | zero => intro sk res h; simp at h
  | succ fuel ih =>
    intro sk res hf hs hw hres
    unfold firstNonblankLine
    have drop : ∀ (x : Str) (d : Nat) (y : Str), (∀ z ∈ x, LineBlank db z) → ¬ LineBlank db d →
        (x ++ d :: y).dropWhile (fun c => db.ucBlank c || c == chCr) = d :: y := by
      intro x d y hx hd
      rw [List.dropWhile_append_of_pos (by intro z hz; exact (lineBlank_iff db z).2 (hx z hz)), List.dropWhile_cons_of_neg]
      intro h
      exact hd ((lineBlank_iff db d).1 h)
    rcases hs with rfl | ⟨s, hs⟩
    · rw [List.nil_append]
      split
      · rename_i h; simp at h
      · rw [drop p c q hp hc]
        show (if c = '\n'.toNat then _ else _) = _
        rw [if_neg hc']
        exact hres rfl
    · have hm : '\n'.toNat ∈ sk := by rw [hs]; simp
      obtain ⟨l, r, e, hl⟩ := first_split hm
      have hr : r = [] ∨ ∃ s', r = s' ++ ['\n'.toNat] := by
        rcases List.eq_nil_or_concat r with rfl | ⟨r', x, rfl⟩
        · exact Or.inl rfl
        · right
          rw [hs] at e
          have := congrArg List.getLast? e
          have h2 : ∀ (a : Str) (b : Str) (x y : Nat), (a ++ x :: b.concat y).getLast? = some y := by
            intro a b x y
            rw [List.concat_eq_append, ← List.cons_append, ← List.append_assoc, List.getLast?_append]
            rfl
          rw [h2, List.getLast?_append] at this
          have hx : '\n'.toNat = x := by simpa using this
          exact ⟨r', by rw [hx]; simp⟩
      split
      · rename_i h
        rw [e] at h
        simp at h
      · rw [e, List.append_assoc, List.cons_append, drop l _ _ _ hn]
        · simp only [if_true]
          refine ih r _ ?_ hr ?_ ?_
          · rw [e] at hf; simp at hf; omega
          · intro x hx; exact hw x (by rw [e]; simp [hx])
          · rintro rfl; rfl
        · intro z hz
          refine (hw z (by rw [e]; simp [hz])).resolve_right ?_
          rintro rfl
          exact hl hz

theorem nonblank_none {db : CharDb} (hn : ¬ LineBlank db '\n'.toNat) : ∀ (fuel : Nat) (s res : Str), s.length < fuel →
    (∀ c ∈ s, LineBlank db c ∨ c = '\n'.toNat) → firstNonblankLine db fuel res (s ++ ['\n'.toNat]) = [] := by
  intro fuel
  induction fuel with
  | zero => intro s res h; simp at h
  | succ fuel ih =>
    intro s res hf hw
    unfold firstNonblankLine
    split
    · rename_i h; simp at h
    · rename_i hcons
      clear hcons
      have : ∃ l r, s ++ ['\n'.toNat] = l ++ '\n'.toNat :: r ∧ (∀ z ∈ l, LineBlank db z) ∧ (r = [] ∨ ∃ r', r = r' ++ ['\n'.toNat] ∧
          r'.length < s.length ∧ ∀ c ∈ r', c ∈ s) := by
        clear ih hf
        induction s with
        | nil => exact ⟨[], [], rfl, by simp, Or.inl rfl⟩
        | cons a t iht =>
          obtain ⟨l, r, e, h1, h2⟩ := iht (fun c hc => hw c (by simp [hc]))
          by_cases ha : a = '\n'.toNat
          · exact ⟨[], t ++ ['\n'.toNat], by rw [ha]; rfl, by simp, Or.inr ⟨t, rfl, by simp, by intro c hc; simp [hc]⟩⟩
          · refine ⟨a :: l, r, by rw [List.cons_append, e]; rfl, ?_, ?_⟩
            · intro z hz
              rcases List.mem_cons.1 hz with rfl | hz
              · exact (hw z (by simp)).resolve_right ha
              · exact h1 z hz
            · rcases h2 with h2 | ⟨r', e', h3, h4⟩
              · exact Or.inl h2
              · exact Or.inr ⟨r', e', by simp; omega, fun c hc => by simp [h4 c hc]⟩
      obtain ⟨l, r, e, h1, h2⟩ := this
      rw [e, List.dropWhile_append_of_pos (by intro z hz; exact (lineBlank_iff db z).2 (h1 z hz)), List.dropWhile_cons_of_neg (by
        intro h; exact hn ((lineBlank_iff db _).1 h))]
      simp only [if_true]
      rcases h2 with rfl | ⟨r', rfl, h3, h4⟩
      · cases fuel <;> rfl
      · exact ih r' _ (by omega) (fun c hc => hw c (h4 c hc))


theorem sample_split {db : CharDb} {s : Str} (h : ∃ c ∈ s, ¬ LineBlank db c ∧ c ≠ '\n'.toNat) :
    ∃ sk p c q, s = sk ++ (p ++ c :: q) ∧ (sk = [] ∨ ∃ s', sk = s' ++ ['\n'.toNat]) ∧ (∀ c ∈ sk, LineBlank db c ∨ c = '\n'.toNat) ∧
      (∀ x ∈ p, LineBlank db x) ∧ ¬ LineBlank db c ∧ c ≠ '\n'.toNat := by
  induction s with
  | nil => obtain ⟨c, hc, -⟩ := h; simp at hc
  | cons a t ih =>
    by_cases ha : ¬ LineBlank db a ∧ a ≠ '\n'.toNat
    · exact ⟨[], [], a, t, rfl, Or.inl rfl, by simp, by simp, ha.1, ha.2⟩
    · obtain ⟨sk, p, c, q, rfl, h1, h2, h3, h4, h5⟩ := ih (by
        obtain ⟨c, hc, h⟩ := h
        rcases List.mem_cons.1 hc with rfl | hc
        · exact absurd h ha
        · exact ⟨c, hc, h⟩)
      have ha' : LineBlank db a ∨ a = '\n'.toNat := by
        by_cases hl : LineBlank db a
        · exact Or.inl hl
        · right
          apply Classical.byContradiction
          intro hn
          exact ha ⟨hl, hn⟩
      rcases h1 with rfl | ⟨s', rfl⟩
      · by_cases hn : a = '\n'.toNat
        · subst hn
          exact ⟨['\n'.toNat], p, c, q, rfl, Or.inr ⟨[], rfl⟩, by simp, h3, h4, h5⟩
        · refine ⟨[], a :: p, c, q, rfl, Or.inl rfl, by simp, ?_, h4, h5⟩
          intro x hx
          rcases List.mem_cons.1 hx with rfl | hx
          · exact ha'.resolve_right hn
          · exact h3 x hx
      · refine ⟨a :: (s' ++ ['\n'.toNat]), p, c, q, rfl, Or.inr ⟨a :: s', rfl⟩, ?_, h3, h4, h5⟩
        intro x hx
        rcases List.mem_cons.1 hx with rfl | hx
        · exact ha'
        · exact h2 x hx

/-- what the scanner makes of the text of a sample -/
theorem sampleToken_spec {db : CharDb} {text : Str} (hesc : 0x1b ∉ text) :
    let t := btrim (text ++ [chNl])
    (t = [] → sampleToken db text = none) ∧
    ((∃ c ∈ t, Forbidden db c) → sampleToken db text = none) ∧
    (t ≠ [] → (¬ ∃ c ∈ t, Forbidden db c) → ∃ b, sampleToken db text = some b ∧
      b.memory = (if ∃ c ∈ t, ¬ Blank db c then dropTrailing db t else t) ++ ['\n'.toNat]) := by
  have hsub : ∀ c ∈ btrim (text ++ [chNl]), c ≠ 0x1b := by
    rintro c hc rfl
    unfold btrim at hc
    rw [List.mem_reverse] at hc
    have := (List.dropWhile_sublist _).subset hc
    simp [chNl] at this
    exact hesc this
  intro t
  refine ⟨?_, ?_, ?_⟩
  · intro h
    have h' : btrim (text ++ [chNl]) = [] := h
    simp [sampleToken, h']
  · intro h
    have h' := (C01_rejected_iff db (Text.plain hsub)).2 h
    unfold sampleToken
    dsimp only
    split
    · rw [h']; rfl
    · rfl
  · intro hne hf
    have h1 : fromUnicode db t ≠ none := fun e => hf ((C01_rejected_iff db (Text.plain hsub)).1 e)
    obtain ⟨b, hb⟩ := Option.ne_none_iff_exists'.1 h1
    have hT : Text t t := Text.plain hsub
    have hnl : Text [chNl] [chNl] := Text.plain (by simp [chNl])
    have key : ∀ r : Bxs, fromUnicode db r.memory = some r → Text r.memory r.memory → (∀ c ∈ r.memory, ¬ Forbidden db c) →
        ∃ x, r.strcat db [chNl] = some x ∧ x.memory = r.memory ++ ['\n'.toNat] := by
      intro r hr hrt hfr
      have hok : ∀ c ∈ ([chNl] : Str), ¬ Forbidden db c := by simp [Forbidden, chNl]
      have hn : fromUnicode db (r.memory ++ [chNl]) ≠ none := by
        rw [Ne, C01_rejected_iff db (hrt.append hnl)]
        rintro ⟨c, hc, hcf⟩
        rcases List.mem_append.1 hc with hc | hc
        · exact hfr c hc hcf
        · exact hok c hc hcf
      obtain ⟨y, hy⟩ := Option.ne_none_iff_exists'.1 hn
      have hm := (C01_metrics db (hrt.append hnl) hy).1
      have hmr := (C01_metrics db hrt hr)
      refine ⟨y, ?_, hm⟩
      unfold Bxs.strcat
      rw [if_neg (by simp), hmr.2.1]
      by_cases h0 : r.memory.length = 0
      · rw [if_pos h0]
        rw [List.length_eq_zero_iff.1 h0] at hy
        exact hy
      · rw [if_neg h0, List.take_length]
        exact hy
    have hb1 := (C01_metrics db hT hb).1
    by_cases hbl : ∃ c ∈ t, ¬ Blank db c
    · obtain ⟨r, hr, hr2, hr3, hr4⟩ := C04_rtrim db hT hb hbl
      have hre : Text r.memory r.memory := Text.plain (fun c hc => hsub c (hr3.subset hc))
      have he := hre.unique hr4
      obtain ⟨x, hx, hxm⟩ := key r hr2 hre (fun c hc h => hf ⟨c, hr3.subset hc, h⟩)
      refine ⟨x, ?_, ?_⟩
      · unfold sampleToken
        dsimp only
        rw [if_pos (by exact List.length_pos_iff.2 hne)]
        show (fromUnicode db t).bind (fun b => (b.rtrim db).bind (fun b2 => b2.strcat db [chNl])) = _
        rw [hb, Option.bind_some, hr, Option.bind_some, hx]
      · rw [hxm, he, if_pos hbl]
    · have hall : ∀ c ∈ t, Blank db c := by
        intro c hc
        apply Classical.byContradiction
        intro h
        exact hbl ⟨c, hc, h⟩
      have hr := C04_rtrim_blank db hT hb hall
      obtain ⟨x, hx, hxm⟩ := key b (by rw [hb1]; exact hb) (by rw [hb1]; exact hT) (fun c hc h => hf ⟨c, by rw [← hb1]; exact hc, h⟩)
      refine ⟨x, ?_, ?_⟩
      · unfold sampleToken
        dsimp only
        rw [if_pos (by exact List.length_pos_iff.2 hne)]
        show (fromUnicode db t).bind (fun b => (b.rtrim db).bind (fun b2 => b2.strcat db [chNl])) = _
        rw [hb, Option.bind_some, hr, Option.bind_some, hx]
      · rw [hxm, hb1, if_neg hbl]

/-- the trimmed text of a sample that has a body -/
theorem sampleBody_trim {db : CharDb} {text body : Str} (h : SampleBody db text body) : ∃ sk blanks,
    btrim (text ++ [chNl]) = sk ++ body ++ blanks ∧ dropTrailing db (sk ++ body ++ blanks) = sk ++ body ∧
    (∃ c ∈ sk ++ body ++ blanks, ¬ Blank db c) ∧
    (sk = [] ∨ ∃ s, sk = s ++ ['\n'.toNat]) ∧ (∀ c ∈ sk, LineBlank db c ∨ c = '\n'.toNat) := by
  obtain ⟨sk, blanks, white, e, h1, h2, h3, ⟨b, c, h4, h4'⟩, h5, ⟨b', c', h6, h6'⟩, h7⟩ := h
  refine ⟨sk, blanks, ?_, ?_, ?_, h1, h2⟩
  · refine dropEnd_eq (p := isTrimWs) (w := white ++ [chNl]) (by rw [e]; simp) ?_ (Or.inr ⟨sk ++ b', c', by rw [List.append_assoc, h6]; simp, ?_⟩)
    · intro x hx
      rcases List.mem_append.1 hx with hx | hx
      · exact (isTrimWs_iff x).2 (h7 x hx)
      · simp at hx; rw [hx]; decide
    · rw [Bool.eq_false_iff]; intro hh; exact h6' ((isTrimWs_iff _).1 hh)
  · unfold dropTrailing
    refine dropEnd_eq (w := blanks) rfl ?_ (Or.inr ⟨sk ++ b, c, by rw [h4]; simp, ?_⟩)
    · intro x hx; simpa using h5 x hx
    · simpa using h4'
  · exact ⟨c, by rw [h4]; simp, h4'⟩

theorem sample_found {db : CharDb} {text body : Str} (hn : db.ucBlank 0x0a = false) (hesc : 0x1b ∉ text) (hf : ∀ c ∈ text, ¬ Forbidden db c)
    (h : SampleBody db text body) : ∃ b, sampleToken db text = some b ∧
      firstNonblankLine db (b.memory.length + 1) b.memory b.memory = body ++ ['\n'.toNat] := by
  have hnl : ¬ LineBlank db '\n'.toNat := by simp [LineBlank, hn]
  obtain ⟨s1, s2, s3⟩ := sampleToken_spec (db := db) hesc
  obtain ⟨sk, blanks, e1, e2, e3, h1, h2⟩ := sampleBody_trim h
  obtain ⟨_, _, white, etext, -, -, ⟨p, c, q, hb, hp, hc, hc'⟩, -⟩ := h
  have hne : btrim (text ++ [chNl]) ≠ [] := by
    rw [e1]; rintro h; obtain ⟨c, hc, -⟩ := e3; rw [h] at hc; simp at hc
  have hnf : ¬ ∃ c ∈ btrim (text ++ [chNl]), Forbidden db c := by
    rintro ⟨c, hc, hcf⟩
    unfold btrim at hc
    rw [List.mem_reverse] at hc
    have := (List.dropWhile_sublist _).subset hc
    rw [List.mem_reverse, List.mem_append] at this
    rcases this with h | h
    · exact hf c h hcf
    · simp at h
      subst h
      simp [Forbidden, chNl] at hcf
  obtain ⟨b, hb1, hb2⟩ := s3 hne hnf
  refine ⟨b, hb1, ?_⟩
  rw [e1, if_pos e3, e2] at hb2
  have e : b.memory = sk ++ (p ++ c :: (q ++ ['\n'.toNat])) := by rw [hb2, hb]; simp
  rw [e, nonblank_found hnl hp hc hc' _ sk _ (by simp; omega) h1 h2 (by rintro rfl; rfl), hb]
  simp

theorem sample_missing {db : CharDb} {text : Str} {b : Bxs} (hn : db.ucBlank 0x0a = false) (ht : db.ucBlank 0x09 = true) (hesc : 0x1b ∉ text)
    (hb : sampleToken db text = some b) (h : ¬ ∃ body, SampleBody db text body) :
    firstNonblankLine db (b.memory.length + 1) b.memory b.memory = [] := by
  have hnl : ¬ LineBlank db '\n'.toNat := by simp [LineBlank, hn]
  obtain ⟨s1, s2, s3⟩ := sampleToken_spec (db := db) hesc
  obtain ⟨r, w, ew, hw, hr⟩ := dropEnd_split isTrimWs (text ++ [chNl])
  have hbt : btrim (text ++ [chNl]) = r := dropEnd_eq ew hw hr
  rw [hbt] at s1 s2 s3
  have hne : r ≠ [] := by intro h; rw [s1 h] at hb; simp at hb
  have hnf : ¬ ∃ c ∈ r, Forbidden db c := by intro h; rw [s2 h] at hb; simp at hb
  obtain ⟨b', hb1, hb2⟩ := s3 hne hnf
  rw [hb1] at hb
  simp only [Option.some.injEq] at hb
  subst hb
  have hr := hr.resolve_left hne
  obtain ⟨r0, c0, er0, hc0⟩ := hr
  have hcons : ∃ w', text = r ++ w' ∧ ∀ c ∈ w', EndWhite c := by
    rcases List.eq_nil_or_concat w with rfl | ⟨w', x, rfl⟩
    · rw [er0] at ew
      have := congrArg List.getLast? ew
      rw [List.append_nil, List.getLast?_append, List.getLast?_append] at this
      have : chNl = c0 := by simpa using this
      rw [← this] at hc0
      exact absurd hc0 (by decide)
    · refine ⟨w', ?_, fun c hc => (isTrimWs_iff c).1 (hw c (by simp [hc]))⟩
      rw [List.concat_eq_append, ← List.append_assoc] at ew
      exact (List.append_inj' ew rfl).1
  obtain ⟨w', etext, hw'⟩ := hcons
  by_cases hbl : ∃ c ∈ r, ¬ Blank db c
  · rw [if_pos hbl] at hb2
    obtain ⟨D, bl, eD, hbl', hD⟩ := dropEnd_split (fun c => decide (Blank db c)) r
    have edt : dropTrailing db r = D := dropEnd_eq eD hbl' hD
    rw [edt] at hb2
    have hD := hD.resolve_left (by
      rintro rfl
      obtain ⟨c, hc, hcb⟩ := hbl
      rw [eD] at hc
      have := hbl' c hc
      simp at this
      exact hcb this)
    obtain ⟨D0, c1, eD0, hc1⟩ := hD
    by_cases hgood : ∃ c ∈ D, ¬ LineBlank db c ∧ c ≠ '\n'.toNat
    · exfalso
      obtain ⟨sk, p, c, q, es, g1, g2, g3, g4, g5⟩ := sample_split hgood
      have hlast : ∀ (z : Str) (x : Nat), sk ++ (p ++ c :: q) ++ z = D ++ z → D ++ z = (D ++ z).dropLast ++ [x] →
          ∃ b, p ++ c :: q ++ z = b ++ [x] := by
        intro z x e1 e2
        rcases List.eq_nil_or_concat (p ++ c :: q ++ z) with h0 | ⟨b, y, h0⟩
        · simp at h0
        · rw [List.concat_eq_append] at h0
          refine ⟨b, ?_⟩
          rw [h0]
          rw [← e1, List.append_assoc, h0, ← List.append_assoc] at e2
          have := (List.append_inj' e2 rfl).2
          rw [this]
      refine h ⟨p ++ c :: q, sk, bl, w', ?_, g1, g2, ⟨p, c, q, rfl, g3, g4, g5⟩, ?_, ?_, ?_, hw'⟩
      · rw [etext, eD, es]
      · obtain ⟨b, hb⟩ := hlast [] c1 (by rw [es]) (by rw [List.append_nil, eD0]; simp)
        rw [List.append_nil] at hb
        exact ⟨b, c1, hb, by simpa using hc1⟩
      · intro c hc; simpa using hbl' c hc
      · obtain ⟨b, hb⟩ := hlast bl c0 (by rw [es]) (by rw [← eD, er0]; simp)
        exact ⟨b, c0, hb, fun hh => by rw [(isTrimWs_iff c0).2 hh] at hc0; simp at hc0⟩
    · rw [hb2]
      refine nonblank_none hnl _ _ _ (by simp; omega) ?_
      intro c hc
      by_cases hl : LineBlank db c
      · exact Or.inl hl
      · right
        apply Classical.byContradiction
        intro hx
        exact hgood ⟨c, hc, hl, hx⟩
  · rw [if_neg hbl] at hb2
    rw [hb2]
    refine nonblank_none hnl _ _ _ (by simp; omega) ?_
    intro c hc
    left
    have : Blank db c := by
      apply Classical.byContradiction
      intro hx
      exact hbl ⟨c, hc, hx⟩
    rcases this with rfl | h
    · exact Or.inl ht
    · exact Or.inl h

/-- C60: The sample of a design is the text of the sample block without the lines in front that have no content, and without blanks
and white space behind, plus a line end; all line ends are those of the output.  A text without content, with a forbidden character,
or a second sample block are refused. -/
theorem C60_sample (env : ParseEnv) (st st' : ParseState) (text : Str) (hn : env.db.ucBlank 0x0a = false) (ht : env.db.ucBlank 0x09 = true)
    (hs : env.db.cntrl 0x20 = false) (hesc : 0x1b ∉ text) (heol : ∀ c ∈ env.eol, c = '\r'.toNat ∨ c = '\n'.toNat) :
    sampleBlock env st text = .ok st' ↔
      st.cur.sample = none ∧ (∀ c ∈ text, ¬ Forbidden env.db c) ∧ ∃ body m b, SampleBody env.db text body ∧
        Eols env.eol (body ++ ['\n'.toNat]) m ∧ fromUnicode env.db m = some b ∧
        st' = { st with cur := { st.cur with sample := some b }, mandatory := st.mandatory + 1 } := by
  have hempty : ∀ b, fromUnicode env.db [] = some b → b.isEmpty = true := by
    intro b hb
    have := (C01_metrics env.db Text.nil hb).2.1
    simp [Bxs.isEmpty, this]
  constructor
  · intro h
    unfold sampleBlock at h
    split at h
    · simp at h
    · rename_i b hb
      split at h
      · simp at h
      · rename_i hsome
        split at h
        · simp at h
        · rename_i line hline
          split at h
          · simp at h
          · rename_i hemp
            split at h
            · simp at h
            · simp only [Res.ok.injEq] at h
              have hbody : ∃ body, SampleBody env.db text body := by
                apply Classical.byContradiction
                intro hx
                rw [sample_missing hn ht hesc hb hx] at hline
                exact hemp (hempty _ hline)
              have hforb : ∀ c ∈ text, ¬ Forbidden env.db c := by
                intro c hc hcf
                have h2 := (sampleToken_spec (db := env.db) hesc).2.1
                rw [h2] at hb
                · simp at hb
                · obtain ⟨r, w, ew, hw, hr⟩ := dropEnd_split isTrimWs (text ++ [chNl])
                  refine ⟨c, ?_, hcf⟩
                  rw [show btrim (text ++ [chNl]) = r from dropEnd_eq ew hw hr]
                  have : c ∈ r ++ w := by rw [← ew]; simp [hc]
                  refine (List.mem_append.1 this).resolve_right ?_
                  intro hcw
                  have := (isTrimWs_iff c).1 (hw c hcw)
                  obtain ⟨f1, f2, f3, f4, f5⟩ := hcf
                  rcases this with rfl | rfl | rfl | rfl
                  · simp [hs] at f1
                  · exact f2 rfl
                  · exact f3 rfl
                  · exact f4 rfl
              obtain ⟨body, hbody⟩ := hbody
              obtain ⟨b', hb', hfnl⟩ := sample_found hn hesc hforb hbody
              rw [hb] at hb'
              simp only [Option.some.injEq] at hb'
              subst hb'
              rw [hfnl] at hline
              exact ⟨by simpa using hsome, hforb, body, _, line, hbody, eols_adjust _ _, hline, h.symm⟩
  · rintro ⟨hnone, hforb, body, m, b, hbody, heols, hb, rfl⟩
    obtain ⟨b', hb', hfnl⟩ := sample_found hn hesc hforb hbody
    have hm : adjustEols env.eol (body ++ ['\n'.toNat]) = m := eols_unique (eols_adjust _ _) _ heols
    obtain ⟨sk, bl, w, etext, -, -, ⟨p, c, q, eb, -, hc, hc'⟩, -⟩ := hbody
    have hcr : c ≠ '\r'.toNat := fun e => hc (Or.inr e)
    have hcm : c ∈ m := eols_content heols c (by rw [eb]; simp) hcr hc'
    have hmem : ∀ x ∈ m, x ≠ 0x1b ∧ ¬ Forbidden env.db x := by
      intro x hx
      have he : ∀ y, (y = '\r'.toNat ∨ y = '\n'.toNat) → y ≠ 0x1b ∧ ¬ Forbidden env.db y := by
        rintro y (rfl | rfl)
        · exact ⟨by decide, fun h => h.2.2.1 rfl⟩
        · exact ⟨by decide, fun h => h.2.2.2.1 rfl⟩
      rcases eols_mem heols x hx with h | h
      · rcases List.mem_append.1 h with h | h
        · have : x ∈ text := by rw [etext]; simp [h]
          exact ⟨fun e => hesc (e ▸ this), hforb x this⟩
        · simp at h; exact he x (Or.inr h)
      · exact he x (heol x h)
    have hT : Text m m := Text.plain (fun x hx => (hmem x hx).1)
    have hmet := C01_metrics env.db hT hb
    have hpos : 0 < m.length := List.length_pos_of_mem hcm
    unfold sampleBlock
    rw [hb']
    simp only [hnone, Option.isSome_none, Bool.false_eq_true, if_false, hfnl, hm, hb]
    rw [if_neg (by simp [Bxs.isEmpty, hmet.2.1]; exact List.ne_nil_of_mem hcm), if_neg]
    simp only [Bxs.validInSample, Bxs.validIn, hmet.1, hmet.2.2.1, isAllowedInSample, Bool.not_eq_true', Bool.not_eq_false, Bool.and_eq_true,
      decide_eq_true_eq, List.all_eq_true]
    refine ⟨hpos, ?_⟩
    intro x hx
    have := (hmem x hx).2
    cases ha : isAllowedAnywhere env.db x with
    | true => rfl
    | false => exact absurd ((allowed_iff env.db x).1 ha) this

/-- environment for the example -/
def sampleEnvCr : ParseEnv := { db := sampleDb, eol := [0x0d, 0x0a], globalConfig := none, canOpen := fun _ => true }

/-- The hypotheses of C60 are met, and the result is the expected one: blank lines in front and white space behind are gone. -/
example : (match sampleBlock sampleEnvCr {} (lit "\n  \r\n  +--\r\n\n  b \n\t ") with
      | .ok s => s.cur.sample.map (·.memory)
      | _ => none) = some (lit "  +--\r\n\r\n  b\r\n") := by decide +kernel

example : sampleEnvCr.db.ucBlank 0x0a = false ∧ sampleEnvCr.db.ucBlank 0x09 = true ∧ sampleEnvCr.db.cntrl 0x20 = false ∧
    (∀ c ∈ sampleEnvCr.eol, c = '\r'.toNat ∨ c = '\n'.toNat) := by decide

example : SampleBody sampleDb (lit " \n  b \n") (lit "  b") :=
  ⟨lit " \n", [], lit " \n", by decide, Or.inr ⟨lit " ", rfl⟩, by unfold LineBlank; decide, ⟨lit "  ", 'b'.toNat, [], rfl,
    by unfold LineBlank; decide, by unfold LineBlank; decide, by decide⟩, ⟨lit "  ", 'b'.toNat, rfl, by decide⟩, by simp,
    ⟨lit "  ", 'b'.toNat, rfl, by unfold EndWhite; decide⟩, by unfold EndWhite; decide⟩

end Boxes
