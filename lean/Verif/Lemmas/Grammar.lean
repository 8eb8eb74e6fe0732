import Verif.Lemmas.Tokens

/-!
# The recogniser of the grammar follows the grammar
-/
set_option linter.unusedSimpArgs false
namespace Boxes
open Spec

theorem reads_scans {m : Mode} {d : Delims} {text : Str} {toks : List Token} (h : Reads m d text toks) : ScansTo m d text toks := by
  induction h with
  | nil m d _ => intro _ fuel hf; cases fuel <;> rfl
  | white c hm hc _ ih => exact scansTo_white c hm hc ih
  | comment body hm hb _ ih => exact scansTo_comment body hm hb ih
  | outerName w hw hk hs _ ih => exact scansTo_word (Or.inl rfl) hw hs id (by simpa using initialWord_name hk) ih
  | innerName w hw hk hs _ ih => exact scansTo_word (Or.inr rfl) hw hs id (by simpa using boxWord_name hk) ih
  | foreign w hm h1 h2 h3 h4 hs _ ih => exact scansTo_foreign w hm h1 h2 h3 h4 hs ih
  | parent w hw hs _ ih =>
    exact scansTo_word (Or.inl rfl) (word_ascii hw (by decide) (by decide)) hs id (by simpa using initialWord_parent hw) ih
  | filename f h1 h2 h3 h4 _ ih => exact scansTo_filename f h1 h2 h3 h4 ih
  | box w hw hs _ ih =>
    exact scansTo_word (Or.inl rfl) (word_ascii hw (by decide) (by decide)) hs (fun _ => validDelims_standard)
      (by simpa using initialWord_box hw) ih
  | endBox w hw hs _ ih =>
    exact scansTo_word (Or.inr rfl) (word_ascii hw (by decide) (by decide)) hs (fun _ => validDelims_standard)
      (by simpa using boxWord_end hw) ih
  | plain w k t hk hw hs _ ih =>
    exact scansTo_word (Or.inr rfl) (word_ascii hw (plainWords_ascii hk).1 (plainWords_ascii hk).2) hs id
      (by simpa using boxWord_plain hk hw) ih
  | keyword w k hk hw hs _ ih =>
    refine scansTo_word (Or.inr rfl) (word_ascii hw ?_ ?_) hs id (by simpa using boxWord_keyword hk hw) ih <;>
    · simp only [List.mem_cons, List.not_mem_nil, or_false] at hk
      rcases hk with rfl | rfl | rfl <;> decide
  | delimiter w k hk hw hs _ ih =>
    refine scansTo_word (Or.inr rfl) (word_ascii hw ?_ ?_) hs id (by simpa using boxWord_delim hk hw) ih <;>
    · simp only [List.mem_cons, List.not_mem_nil, or_false] at hk
      rcases hk with rfl | rfl <;> decide
  | delimSpec d' h1 h2 h3 _ ih => exact scansTo_delimSpec d' h1 h2 h3 ih
  | shapes w hw hs _ ih =>
    exact scansTo_word (Or.inr rfl) (word_ascii hw (by decide) (by decide)) hs id (by simpa using boxWord_shapes hw) ih
  | elastic w hw hs _ ih =>
    exact scansTo_word (Or.inr rfl) (word_ascii hw (by decide) (by decide)) hs id (by simpa using boxWord_elastic hw) ih
  | sample w hw hs _ ih =>
    exact scansTo_word (Or.inr rfl) (word_ascii hw (by decide) (by decide)) hs id (by simpa using boxWord_sample hw) ih
  | sampleText body indent e h1 h2 h3 h4 _ ih => exact scansTo_sampleText body indent e h1 h2 h3 h4 ih
  | string raw text hm hq h1 h2 _ ih => exact scansTo_string raw text hm hq h1 h2 ih
  | number ds h1 h2 h3 _ ih => exact scansTo_number ds h1 h2 h3 ih
  | signed ds sign h1 h2 h3 h4 _ ih => exact scansTo_signed ds sign h1 h2 h3 h4 ih
  | @symbol m d s ts c hm hc h1 h2 _ ih =>
    refine scansTo_symbol c hm hc ?_ ih
    rw [if_neg]
    rintro (⟨e1, e2⟩ | ⟨e1, e2⟩)
    · exact h1 e1 e2
    · exact h2 e1 e2
  | closeShapes _ ih => exact scansTo_symbol _ (by decide) (by decide) (by decide) ih
  | closeElastic _ ih => exact scansTo_symbol _ (by decide) (by decide) (by decide) ih
  | shape w k n hm hk hw hs _ ih => exact scansTo_shape w k n hm hk hw hs ih
  | mark hm h1 h2 _ ih => exact scansTo_mark hm h1 h2 ih
  | noFile _ ih => exact (scansTo_noFile ih).1
  | noFile' _ ih => exact (scansTo_noFile ih).2
  | openSample h => exact scansTo_openSample h
  | lostSample body e h1 h2 h3 _ ih => exact scansTo_lostSample body e h1 h2 h3 ih
  | senseless c h _ ih => exact scansTo_senseless c h ih
  | openString line hm h1 h2 _ ih => exact scansTo_openString line hm h1 h2 ih
  | wrongDelims w h1 h2 h3 h4 h5 _ ih => exact scansTo_wrongDelims w h1 h2 h3 h4 h5 ih

theorem tagsTail_iff (toks : List Token) : ∀ (vs : List Str) (ts : List Token),
    tagsTail toks = some (vs, ts) ↔ toks = moreOf Token.string vs ++ ts := by
  fun_induction tagsTail toks with
  | case1 rest =>
    intro vs ts
    cases vs with
    | nil => simp [moreOf]
    | cons v vs => simp [moreOf]
  | case2 s rest' hc ih =>
    intro vs ts
    cases vs with
    | nil => simp [moreOf]
    | cons v vs =>
      simp only [moreOf, List.cons_append, List.cons.injEq, Option.map_eq_some_iff, Prod.mk.injEq, Prod.exists, Token.string.injEq]
      constructor
      · rintro ⟨a, b, h, ⟨rfl, rfl⟩, rfl⟩
        exact ⟨trivial, rfl, (ih _ _).1 h⟩
      · rintro ⟨-, rfl, h⟩
        exact ⟨vs, ts, (ih _ _).2 h, ⟨rfl, rfl⟩, rfl⟩
  | case3 rest hc hr =>
    intro vs ts
    cases vs with
    | nil => simp [moreOf]
    | cons v vs => simp [moreOf]; intro h; exact hc _ _ h
  | case4 c rest h1 h2 =>
    intro vs ts
    cases vs with
    | nil => simp [moreOf] at *; intro e; exact absurd e h1
    | cons v vs => simp [moreOf] at *; intro e; exact absurd e h2
  | case5 toks h =>
    intro vs ts
    cases vs with
    | nil => simp [moreOf]; rintro rfl; exact h _ _ rfl
    | cons v vs => simp [moreOf]; rintro rfl; exact h _ _ rfl

theorem elasticTail_iff (toks : List Token) : ∀ (vs : List ShapeName) (ts : List Token),
    elasticTail toks = some (vs, ts) ↔ toks = moreOf Token.shape vs ++ ts := by
  fun_induction elasticTail toks with
  | case1 rest =>
    intro vs ts
    cases vs with
    | nil => simp [moreOf]
    | cons v vs => simp [moreOf]
  | case2 s rest' hc ih =>
    intro vs ts
    cases vs with
    | nil => simp [moreOf]
    | cons v vs =>
      simp only [moreOf, List.cons_append, List.cons.injEq, Option.map_eq_some_iff, Prod.mk.injEq, Prod.exists, Token.shape.injEq]
      constructor
      · rintro ⟨a, b, h, ⟨rfl, rfl⟩, rfl⟩
        exact ⟨trivial, rfl, (ih _ _).1 h⟩
      · rintro ⟨-, rfl, h⟩
        exact ⟨vs, ts, (ih _ _).2 h, ⟨rfl, rfl⟩, rfl⟩
  | case3 rest hc hr =>
    intro vs ts
    cases vs with
    | nil => simp [moreOf]
    | cons v vs => simp [moreOf]; intro h; exact hc _ _ h
  | case4 c rest h1 h2 =>
    intro vs ts
    cases vs with
    | nil => simp [moreOf] at *; intro e; exact absurd e h1
    | cons v vs => simp [moreOf] at *; intro e; exact absurd e h2
  | case5 toks h =>
    intro vs ts
    cases vs with
    | nil => simp [moreOf]; rintro rfl; exact h _ _ rfl
    | cons v vs => simp [moreOf]; rintro rfl; exact h _ _ rfl

theorem paddingTail_iff (toks : List Token) : ∀ (es : List (Str × Int)) (ts : List Token),
    paddingTail toks = some (es, ts) ↔
      toks = es.flatMap (fun e => [Token.asciiId e.1, Token.number e.2]) ++ Token.sym '}'.toNat :: ts := by
  fun_induction paddingTail toks with
  | case1 a n rest ih =>
    intro es ts
    cases es with
    | nil => simp
    | cons e es =>
      simp only [List.flatMap_cons, List.cons_append, List.nil_append, List.cons.injEq, Option.map_eq_some_iff, Prod.mk.injEq, Prod.exists,
        Token.asciiId.injEq, Token.number.injEq]
      constructor
      · rintro ⟨x, y, h, ⟨rfl, rfl⟩, rfl⟩
        exact ⟨rfl, rfl, (ih _ _).1 h⟩
      · rintro ⟨rfl, rfl, h⟩
        exact ⟨es, ts, (ih _ _).2 h, ⟨rfl, rfl⟩, rfl⟩
  | case2 rest =>
    intro es ts
    cases es <;> simp
  | case3 c rest hc =>
    intro es ts
    cases es with
    | nil => simp; intro e; exact absurd e hc
    | cons e es => simp
  | case4 toks h1 h2 =>
    intro es ts
    cases es with
    | nil => simp; rintro rfl; exact h2 _ _ rfl
    | cons e es => simp; rintro rfl; exact h1 _ _ _ rfl

theorem shapeTokens_iff (n : ShapeName) (ls : List Str) (t : List Token) :
    ShapeTokens (n, ls) t ↔ (ls = [] ∧ t = [.shape n, .sym '('.toNat, .sym ')'.toNat]) ∨
      ∃ l ls', ls = l :: ls' ∧ t = .shape n :: .sym '('.toNat :: .string l :: moreOf .string ls' := by
  constructor
  · rintro (_ | ⟨_, _, ts, h⟩)
    · exact Or.inl ⟨rfl, rfl⟩
    · cases h
      exact Or.inr ⟨_, _, rfl, rfl⟩
  · rintro (⟨rfl, rfl⟩ | ⟨l, ls', rfl, rfl⟩)
    · exact .none n
    · exact .some n _ _ (.mk l ls')

theorem shapesTail_sound : ∀ (fuel : Nat) (toks : List Token) (ds : List (ShapeName × List Str)) (ts : List Token),
    shapesTail fuel toks = some (ds, ts) → ∃ t, ShapeListTokens ds t ∧ toks = t ++ Token.sym '}'.toNat :: ts := by
  intro fuel toks
  fun_induction shapesTail fuel toks with
  | case1 => intro ds ts h; simp at h
  | case2 => intro ds ts h; simp at h
  | case3 fuel n o h1 rest' ih2 =>
    intro ds ts h
    simp only [Option.map_eq_some_iff, Prod.mk.injEq, Prod.exists] at h
    obtain ⟨a, b, h, rfl, rfl⟩ := h
    obtain ⟨t, ht, rfl⟩ := ih2 _ _ h
    simp at h1
    subst h1
    exact ⟨_, .cons (.none n) ht, by simp⟩
  | case4 => intro ds ts h; simp at h
  | case5 fuel n o h1 s rest' ih =>
    intro ds ts h
    simp only [Option.map_eq_some_iff, Option.bind_eq_some_iff, Prod.mk.injEq, Prod.exists] at h
    obtain ⟨q1, q2, hq, a, b, h, rfl, rfl⟩ := h
    obtain ⟨t, ht, rfl⟩ := ih (q1, q2) _ _ h
    rw [tagsTail_iff] at hq
    subst hq
    simp at h1
    subst h1
    exact ⟨_, .cons (.some n _ _ (.mk s q1)) ht, by simp⟩
  | case6 => intro ds ts h; simp at h
  | case7 fuel rest =>
    intro ds ts h
    simp at h
    obtain ⟨rfl, rfl⟩ := h
    exact ⟨[], .nil, rfl⟩
  | case8 => intro ds ts h; simp at h
  | case9 => intro ds ts h; simp at h

theorem shapesTail_complete {ds : List (ShapeName × List Str)} {t : List Token} (h : ShapeListTokens ds t) : ∀ (fuel : Nat) (ts : List Token),
    t.length < fuel → shapesTail fuel (t ++ Token.sym '}'.toNat :: ts) = some (ds, ts) := by
  induction h with
  | nil => intro fuel ts hf; cases fuel with
    | zero => simp at hf
    | succ f => simp [shapesTail]
  | @cons d ds t ts h1 h2 ih =>
    intro fuel tl hf
    cases fuel with
    | zero => simp at hf
    | succ f =>
      obtain ⟨n, ls⟩ := d
      rcases (shapeTokens_iff _ _ _).1 h1 with ⟨rfl, rfl⟩ | ⟨l, ls', rfl, rfl⟩
      · have := ih f tl (by simp at hf; omega)
        simp only [List.cons_append, List.nil_append, shapesTail]
        simp at this
        simp [this]
      · have := ih f tl (by simp at hf; omega)
        simp only [List.cons_append, List.append_assoc, shapesTail]
        rw [if_neg (by simp), (tagsTail_iff _ ls' (ts ++ Token.sym '}'.toNat :: tl)).2 rfl]
        simp at this
        simp [this]

theorem ruleFlag_eq (toks : List Token) (f : Option Char) (r : List Token) :
    ruleFlag toks = (f, r) ↔ (toks = (f.map Token.flag).toList ++ r ∧ (f = none → ∀ c r', r ≠ Token.flag c :: r')) := by
  unfold ruleFlag
  split
  · rename_i c rest
    cases f with
    | none => simp; rintro rfl; exact ⟨c, rest, rfl⟩
    | some x => simp
  · rename_i h
    cases f with
    | none => simp; rintro rfl; exact fun c r' e => h c r' e
    | some x => simp; intro e; exact h _ _ e

theorem firstItem_complete {i : Item} {t : List Token} (h : ItemTokens i t) (ts : List Token) : firstItem (t ++ ts) = some (i, ts) := by
  cases h with
  | keyword k v => rfl
  | delims => rfl
  | word w v => rfl
  | «foreign» w v => rfl
  | tag v => rfl
  | tags h =>
    cases h with
    | mk a rest =>
      simp only [List.cons_append, firstItem, if_true]
      rw [(tagsTail_iff _ rest ts).2 rfl]
      rfl
  | sample t => rfl
  | @shapes ds t' hne h =>
    have hh : ∃ n r, t' = .shape n :: r := by
      cases h with
      | nil => exact absurd rfl hne
      | @cons d ds t ts h1 h2 =>
        obtain ⟨n, ls⟩ := d
        rcases (shapeTokens_iff _ _ _).1 h1 with ⟨-, rfl⟩ | ⟨l, ls', -, rfl⟩
        · exact ⟨n, _, rfl⟩
        · exact ⟨n, _, rfl⟩
    obtain ⟨n, r, rfl⟩ := hh
    have e : Token.shapes :: Token.sym '{'.toNat :: (Token.shape n :: r ++ [Token.sym '}'.toNat]) ++ ts =
        Token.shapes :: Token.sym '{'.toNat :: Token.shape n :: (r ++ Token.sym '}'.toNat :: ts) := by simp
    rw [e]
    simp only [firstItem, if_true]
    have := shapesTail_complete h ((r ++ Token.sym '}'.toNat :: ts).length + 2) ts (by simp; omega)
    rw [List.cons_append] at this
    rw [this]
    rfl
  | elastic h =>
    cases h with
    | mk a rest =>
      simp only [List.cons_append, firstItem, if_true]
      rw [(elasticTail_iff _ rest ts).2 rfl]
      rfl
  | replace f s r => cases f <;> rfl
  | reverse f s r => cases f <;> rfl
  | @padding es hne =>
    cases es with
    | nil => exact absurd rfl hne
    | cons e es =>
      have e' : Token.padding :: Token.sym '{'.toNat :: ((e :: es).flatMap (fun e => [Token.asciiId e.1, Token.number e.2]) ++
          [Token.sym '}'.toNat]) ++ ts = Token.padding :: Token.sym '{'.toNat :: Token.asciiId e.1 :: (Token.number e.2 ::
          es.flatMap (fun e => [Token.asciiId e.1, Token.number e.2]) ++ Token.sym '}'.toNat :: ts) := by simp
      rw [e']
      simp only [firstItem, if_true]
      rw [(paddingTail_iff _ (e :: es) ts).2 (by simp)]
      rfl

theorem firstItem_sound (toks : List Token) (i : Item) (ts : List Token) (h : firstItem toks = some (i, ts)) :
    ∃ t, ItemTokens i t ∧ toks = t ++ ts := by
  unfold firstItem at h
  split at h
  · simp at h; obtain ⟨rfl, rfl⟩ := h; exact ⟨_, .keyword _ _, rfl⟩
  · simp at h; obtain ⟨rfl, rfl⟩ := h; exact ⟨_, .delims, rfl⟩
  · simp at h; obtain ⟨rfl, rfl⟩ := h; exact ⟨_, .tag _, rfl⟩
  · split at h
    · rename_i c s rest hc
      subst hc
      simp only [Option.map_eq_some_iff, Prod.mk.injEq, Prod.exists] at h
      obtain ⟨a, b, h, rfl, rfl⟩ := h
      rw [tagsTail_iff] at h
      subst h
      exact ⟨_, .tags (.mk _ _), rfl⟩
    · simp at h
  · simp at h; obtain ⟨rfl, rfl⟩ := h; exact ⟨_, .foreign _ _, rfl⟩
  · simp at h; obtain ⟨rfl, rfl⟩ := h; exact ⟨_, .word _ _, rfl⟩
  · simp at h; obtain ⟨rfl, rfl⟩ := h; exact ⟨_, .sample _, rfl⟩
  · split at h
    · rename_i c n rest hc
      subst hc
      simp only [Option.map_eq_some_iff, Prod.mk.injEq, Prod.exists] at h
      obtain ⟨a, b, h, rfl, rfl⟩ := h
      obtain ⟨t, h1, h2⟩ := shapesTail_sound _ _ _ _ h
      refine ⟨_, .shapes ?_ h1, by rw [h2]; simp⟩
      rintro rfl
      cases h1
      simp at h2
    · simp at h
  · split at h
    · rename_i c s rest hc
      subst hc
      simp only [Option.map_eq_some_iff, Prod.mk.injEq, Prod.exists] at h
      obtain ⟨a, b, h, rfl, rfl⟩ := h
      rw [elasticTail_iff] at h
      subst h
      exact ⟨_, .elastic (.mk _ _), rfl⟩
    · simp at h
  · split at h
    · rename_i f s r rest' hf
      simp at h; obtain ⟨rfl, rfl⟩ := h
      rw [ruleFlag_eq] at hf
      exact ⟨_, .replace _ _ _, by rw [hf.1]; simp⟩
    · simp at h
  · split at h
    · rename_i f s r rest' hf
      simp at h; obtain ⟨rfl, rfl⟩ := h
      rw [ruleFlag_eq] at hf
      exact ⟨_, .reverse _ _ _, by rw [hf.1]; simp⟩
    · simp at h
  · split at h
    · rename_i c a rest hc
      subst hc
      simp only [Option.map_eq_some_iff, Prod.mk.injEq, Prod.exists] at h
      obtain ⟨a, b, h, rfl, rfl⟩ := h
      rw [paddingTail_iff] at h
      refine ⟨_, .padding ?_, by rw [h]; simp⟩
      rintro rfl
      simp at h
    · simp at h
  · simp at h

theorem itemTokens_head {i : Item} {t : List Token} (h : ItemTokens i t) :
    i ≠ .bad ∧ ∃ c r, t = c :: r ∧ c ≠ .endBox ∧ (∀ x, c ≠ .sym x) := by
  cases h <;> exact ⟨by simp, _, _, rfl, by simp, by simp⟩

theorem layoutItems_complete {is : List Item} {t : List Token} (h : LayoutTokens is t) : ∀ (fuel : Nat) (n : Str) (ts : List Token),
    t.length < fuel → layoutItems fuel (t ++ .endBox :: .asciiId n :: ts) = (is, n, ts) := by
  induction h with
  | nil => intro fuel n ts hf; cases fuel with
    | zero => simp at hf
    | succ f => rfl
  | @cons i is t t' h1 h2 ih =>
    intro fuel n ts hf
    cases fuel with
    | zero => simp at hf
    | succ f =>
      obtain ⟨-, c, r, rfl, hc, -⟩ := itemTokens_head h1
      have hi := firstItem_complete h1 (t' ++ .endBox :: .asciiId n :: ts)
      have := ih f n ts (by simp at hf; omega)
      rw [List.append_assoc]
      unfold layoutItems
      split
      · rename_i e
        simp at e
        exact absurd e.1 hc
      · rw [hi]
        simp only [this]

theorem layoutItems_sound : ∀ (fuel : Nat) (toks : List Token) (is : List Item) (n : Str) (ts : List Token),
    layoutItems fuel toks = (is, n, ts) → .bad ∉ is → ∃ t, LayoutTokens is t ∧ toks = t ++ .endBox :: .asciiId n :: ts
  | 0, toks, is, n, ts, h, hb => by
    simp [layoutItems] at h
    rw [← h.1] at hb
    simp at hb
  | fuel + 1, toks, is, n, ts, h, hb => by
    unfold layoutItems at h
    split at h
    · simp at h
      obtain ⟨rfl, rfl, rfl⟩ := h
      exact ⟨[], .nil, rfl⟩
    · split at h
      · rename_i i rest hi
        simp only [Prod.mk.injEq] at h
        obtain ⟨rfl, hn, hr⟩ := h
        obtain ⟨t, h1, rfl⟩ := firstItem_sound _ _ _ hi
        rw [List.mem_cons, not_or] at hb
        obtain ⟨t2, h2, e2⟩ := layoutItems_sound fuel rest _ n ts (Prod.ext rfl (Prod.ext hn hr)) hb.2
        exact ⟨_, .cons h1 h2, by rw [e2]; simp⟩
      · simp at h
        rw [← h.1] at hb
        simp at hb

theorem firstItem_none {ts : List Token} : firstItem ts = none ↔ ∀ i t r, ItemTokens i t → ts ≠ t ++ r := by
  constructor
  · rintro h i t r hi rfl
    rw [firstItem_complete hi] at h
    simp at h
  · intro h
    cases hx : firstItem ts with
    | none => rfl
    | some q =>
      obtain ⟨t, ht, e⟩ := firstItem_sound ts q.1 q.2 hx
      exact absurd e (h _ _ _ ht)

/-- a design with a syntax error -/
theorem layoutItems_flawed {is : List Item} {t : List Token} (h : LayoutTokens is t) : ∀ (fuel : Nat) (ts : List Token), NoEntry ts →
    t.length < fuel → layoutItems fuel (t ++ ts) = (is ++ [.bad], [], ts) := by
  induction h with
  | nil =>
    intro fuel ts hn hf
    cases fuel with
    | zero => simp at hf
    | succ f =>
      unfold layoutItems
      rw [List.nil_append]
      split
      · rename_i n r
        exact absurd rfl (hn.2 _ _)
      · rw [firstItem_none.2 hn.1]
        rfl
  | @cons i is t t' h1 h2 ih =>
    intro fuel ts hn hf
    cases fuel with
    | zero => simp at hf
    | succ f =>
      obtain ⟨-, c, r, rfl, hc, -⟩ := itemTokens_head h1
      have hi := firstItem_complete h1 (t' ++ ts)
      have := ih f ts hn (by simp at hf; omega)
      rw [List.append_assoc]
      unfold layoutItems
      split
      · rename_i e
        simp at e
        exact absurd e.1 hc
      · rw [hi]
        simp only [this]
        rfl

theorem layoutItems_cases : ∀ (fuel : Nat) (toks : List Token) (is : List Item) (n : Str) (ts : List Token), toks.length < fuel →
    layoutItems fuel toks = (is, n, ts) → (∃ t, LayoutTokens is t ∧ toks = t ++ .endBox :: .asciiId n :: ts) ∨
      ∃ is0 t, is = is0 ++ [.bad] ∧ n = [] ∧ LayoutTokens is0 t ∧ toks = t ++ ts ∧ NoEntry ts
  | 0, toks, is, n, ts, hf, h => by simp at hf
  | fuel + 1, toks, is, n, ts, hf, h => by
    unfold layoutItems at h
    split at h
    · simp at h
      obtain ⟨rfl, rfl, rfl⟩ := h
      exact Or.inl ⟨[], .nil, rfl⟩
    · rename_i hend
      split at h
      · rename_i i rest hi
        simp only [Prod.mk.injEq] at h
        obtain ⟨rfl, hn, hr⟩ := h
        obtain ⟨t, h1, rfl⟩ := firstItem_sound _ _ _ hi
        have hlen : rest.length < fuel := by
          obtain ⟨-, c, r, rfl, -⟩ := itemTokens_head h1
          simp at hf
          omega
        rcases layoutItems_cases fuel rest _ n ts hlen (Prod.ext rfl (Prod.ext hn hr)) with ⟨t2, h2, e2⟩ | ⟨is0, t2, g1, g2, g3, g4, g5⟩
        · exact Or.inl ⟨_, .cons h1 h2, by rw [e2]; simp⟩
        · exact Or.inr ⟨i :: is0, t ++ t2, congrArg (i :: ·) g1, g2, .cons h1 g3, by rw [g4]; simp, g5⟩
      · rename_i hnone
        simp at h
        obtain ⟨rfl, rfl, rfl⟩ := h
        exact Or.inr ⟨[], [], rfl, rfl, .nil, rfl, firstItem_none.1 hnone, fun n r e => hend n r e⟩

theorem aliasNames_iff (toks : List Token) : ∀ (as : List Str) (ts : List Token), aliasNames toks = some (as, ts) ↔
    toks = as.flatMap (fun a => [.sym ','.toNat, .asciiId a]) ++ ts ∧ ∀ r, ts ≠ .sym ','.toNat :: r := by
  fun_induction aliasNames toks with
  | case1 a rest ih =>
    intro as ts
    cases as with
    | nil => simp; rintro rfl; exact ⟨_, rfl⟩
    | cons b bs =>
      simp only [List.flatMap_cons, List.cons_append, List.nil_append, List.cons.injEq, Option.map_eq_some_iff, Prod.mk.injEq, Prod.exists,
        Token.asciiId.injEq]
      constructor
      · rintro ⟨x, y, h, ⟨rfl, rfl⟩, rfl⟩
        exact ⟨⟨trivial, rfl, ((ih _ _).1 h).1⟩, ((ih _ _).1 h).2⟩
      · rintro ⟨⟨-, rfl, h⟩, h'⟩
        exact ⟨bs, ts, (ih _ _).2 ⟨h, h'⟩, ⟨rfl, rfl⟩, rfl⟩
  | case2 c a rest hc =>
    intro as ts
    cases as with
    | nil =>
      simp
      rintro rfl r e
      simp at e
      exact hc e.1
    | cons b bs => simp; intro e; exact absurd e hc
  | case3 rest hr =>
    intro as ts
    cases as with
    | nil => simp; rintro rfl; exact ⟨_, rfl⟩
    | cons b bs => simp; rintro rfl; exact absurd rfl (hr _ _)
  | case4 c rest hr hc =>
    intro as ts
    cases as with
    | nil =>
      simp
      rintro rfl r e
      simp at e
      exact hc e.1
    | cons b bs => simp; intro e; exact absurd e hc
  | case5 toks h1 h2 =>
    intro as ts
    cases as with
    | nil =>
      simp
      rintro rfl r e
      exact h2 _ _ e
    | cons b bs => simp; rintro rfl; exact absurd rfl (h1 _ _ _)

theorem aliasNames_none (toks : List Token) : aliasNames toks = none ↔
    ∃ as ts, toks = aliasTokens as ++ .sym ','.toNat :: ts ∧ ∀ a r, ts ≠ .asciiId a :: r := by
  fun_induction aliasNames toks with
  | case1 a rest ih =>
    rw [Option.map_eq_none_iff, ih]
    constructor
    · rintro ⟨as, ts, rfl, h⟩
      exact ⟨a :: as, ts, rfl, h⟩
    · rintro ⟨as, ts, e, h⟩
      cases as with
      | nil =>
        simp [aliasTokens] at e
        exact absurd e.symm (h _ _)
      | cons b bs =>
        simp [aliasTokens] at e
        exact ⟨bs, ts, by simpa [aliasTokens] using e.2, h⟩
  | case2 c a rest hc =>
    simp only [reduceCtorEq, false_iff]
    rintro ⟨as, ts, e, h⟩
    cases as with
    | nil => simp [aliasTokens] at e; exact hc e.1
    | cons b bs => simp [aliasTokens] at e; exact hc e.1
  | case3 rest hr =>
    simp only [true_iff]
    exact ⟨[], rest, rfl, fun a r e => hr a r e⟩
  | case4 c rest hr hc =>
    simp only [reduceCtorEq, false_iff]
    rintro ⟨as, ts, e, h⟩
    cases as with
    | nil => simp [aliasTokens] at e; exact hc e.1
    | cons b bs => simp [aliasTokens] at e; exact hc e.1
  | case5 toks h1 h2 =>
    simp only [reduceCtorEq, false_iff]
    rintro ⟨as, ts, e, h⟩
    cases as with
    | nil => simp [aliasTokens] at e; exact h2 _ _ e
    | cons b bs => simp [aliasTokens] at e; exact h1 _ _ _ e

theorem layoutTokens_bad {is : List Item} {t : List Token} (h : LayoutTokens is t) : .bad ∉ is := by
  induction h with
  | nil => simp
  | cons h1 h2 ih =>
    rw [List.mem_cons, not_or]
    exact ⟨fun e => (itemTokens_head h1).1 e.symm, ih⟩

end Boxes
