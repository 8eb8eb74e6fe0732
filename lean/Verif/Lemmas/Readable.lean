import Verif.Lemmas.TokensBack

/-!
# Which texts the scanner can read to the end
-/
namespace Boxes
open Spec
set_option linter.unusedSimpArgs false

theorem sub_dropWhile {p : Nat → Bool} {l : Str} : l.dropWhile p ⊆ l := (List.dropWhile_sublist p).subset

theorem sub_drop {n : Nat} {l : Str} : l.drop n ⊆ l := (List.drop_sublist n l).subset

theorem sub_tail {c : Nat} {l : Str} : l ⊆ c :: l := fun _ h => List.mem_cons_of_mem _ h

theorem scanWord_sub (sc : Scanner) (text : Str) : (scanWord sc text).2.2 ⊆ text := by
  unfold scanWord
  dsimp only
  split
  · exact sub_dropWhile
  · split <;> exact sub_dropWhile

theorem scanComment_sub (sc : Scanner) (rest : Str) : (scanComment sc rest).2.2 ⊆ rest := by
  unfold scanComment
  split
  · exact sub_drop
  · exact fun _ h => h

theorem scanString_sub (m : Mode) {d : Delims} (hv : ValidDelims d) (text : Str) : (scanString ⟨m, d⟩ text).2.2 ⊆ text := by
  unfold scanString
  split
  · exact sub_drop
  rename_i line hl
  obtain ⟨r, rfl, -⟩ := lineRest_some hl
  split
  · exact sub_drop
  · exact sub_drop
  · rename_i t r' ht
    obtain ⟨raw, e, -⟩ := (C40_scan d hv.1 _ t r').1 ht
    intro x hx
    rw [List.mem_append] at hx
    rcases hx with hx | hx
    · rw [e]
      simp [hx]
    · exact sub_drop hx

theorem scanNumber_sub (sc : Scanner) (c : Nat) (rest : Str) : (scanNumber sc c rest).2.2 ⊆ c :: rest := by
  unfold scanNumber
  split
  · exact sub_dropWhile
  · dsimp only
    split
    · exact sub_tail
    · exact fun _ h => sub_tail (sub_dropWhile h)

theorem scanStep_sub (m : Mode) {d : Delims} (hv : ValidDelims d) (c : Nat) (rest : Str) (st : Step) (h : scanStep ⟨m, d⟩ c rest = some st) :
    st.2.2 ⊆ c :: rest := by
  have shapes : ∀ m, (scanShapes ⟨m, d⟩ c rest).2.2 ⊆ c :: rest := by
    intro m
    unfold scanShapes
    split
    · exact sub_tail
    split
    · exact scanString_sub _ hv _
    split
    · exact sub_drop
    split
    · exact sub_tail
    split
    · exact fun _ h => sub_tail (scanComment_sub _ _ h)
    · exact sub_tail
  unfold scanStep at h
  cases m <;> dsimp only at h
  · injection h with h
    subst h
    unfold scanInitial
    split
    · exact sub_tail
    split
    · exact scanWord_sub _ _
    split
    · exact fun _ h => sub_tail (scanComment_sub _ _ h)
    · exact sub_tail
  all_goals first
    | (injection h with h; subst h; exact shapes _)
    | (cases h; done)
    | skip
  · injection h with h
    subst h
    unfold scanBox
    split
    · exact sub_tail
    split
    · exact scanString_sub _ hv _
    split
    · exact scanWord_sub _ _
    split
    · exact scanNumber_sub _ _ _
    split
    · exact sub_tail
    split
    · exact fun _ h => sub_tail (scanComment_sub _ _ h)
    · exact sub_tail
  · injection h with h
    subst h
    unfold scanDelimspec
    split
    · exact sub_tail
    dsimp only
    split
    · exact sub_dropWhile
    split <;> exact sub_dropWhile
  · unfold scanParent at h
    dsimp only at h
    split at h
    · split at h
      · injection h with h; subst h; exact sub_tail
      · split at h
        · injection h with h; subst h; exact fun _ h => sub_tail (sub_drop h)
        · cases h
    · injection h with h; subst h; exact sub_dropWhile

theorem scanSample_sub : ∀ (bol : Bool) (acc text : Str) (ts : List Token) (r : Str), scanSample bol acc text = some (ts, r) → r ⊆ text := by
  have me : ∀ t r : Str, matchEnds t = some r → r ⊆ t := by
    intro t r h
    unfold matchEnds at h
    split at h
    · dsimp only at h
      split at h
      · injection h with h
        subst h
        exact fun _ h => sub_drop (sub_dropWhile h)
      · cases h
    · cases h
  intro bol acc text
  induction text generalizing bol acc with
  | nil => intro ts r h; simp [scanSample] at h
  | cons c rest ih =>
    intro ts r h
    unfold scanSample at h
    dsimp only at h
    split at h
    · rename_i r' hr
      simp only [Option.some.injEq, Prod.mk.injEq] at h
      obtain ⟨-, rfl⟩ := h
      split at hr
      · exact fun _ h => sub_drop (me _ _ hr h)
      · cases hr
    split at h
    · rename_i r' hr
      simp only [Option.some.injEq, Prod.mk.injEq] at h
      obtain ⟨-, rfl⟩ := h
      exact me _ _ hr
    split at h
    · exact fun _ h' => sub_tail (ih _ _ _ _ h h')
    · exact fun _ h' => sub_tail (ih _ _ _ _ h h')

theorem scanStep_ok {m : Mode} {d : Delims} (hv : ValidDelims d) {c : Nat} {rest : Str} {st : Step} (h : scanStep ⟨m, d⟩ c rest = some st) :
    StepOk m d (c :: rest) st := by
  unfold scanStep at h
  cases m <;> dsimp only at h
  case parent => exact stepOk_parent hv h
  case sample => cases h
  all_goals (injection h with h; subst h)
  case initial => exact stepOk_initial hv
  case box => exact stepOk_box hv
  case shapes => exact stepOk_shapes (Or.inl rfl) hv
  case elastic => exact stepOk_shapes (Or.inr rfl) hv
  case delimspec => exact stepOk_delimspec hv

/-- The scanner exits early only at a carriage return. -/
theorem scan_some : ∀ (fuel : Nat) (m : Mode) (d : Delims) (text : Str), ValidDelims d → '\r'.toNat ∉ text → ∃ toks, scan fuel ⟨m, d⟩ text = some toks
  | 0, _, _, _, _, _ => ⟨_, rfl⟩
  | _ + 1, _, _, [], _, _ => ⟨_, rfl⟩
  | fuel + 1, m, d, c :: rest, hv, hcr => by
    unfold scan
    split
    · split
      · exact ⟨_, rfl⟩
      · rename_i ts r h
        obtain ⟨toks, e⟩ := scan_some fuel .box d r hv (fun h' => hcr (scanSample_sub _ _ _ _ _ h h'))
        exact ⟨ts ++ toks, by dsimp only; rw [e]; rfl⟩
    · rename_i hm
      split
      · rename_i h
        exfalso
        unfold scanStep at h
        cases m <;> try (simp at h; done)
        case sample => exact absurd rfl hm
        · dsimp only at h
          unfold scanParent at h
          dsimp only at h
          split at h
          · rename_i he
            split at h
            · cases h
            · rename_i hn
              have : c = '\r'.toNat := by
                simp at he
                rcases he with he | he
                · exact he
                · exact absurd he hn
              exact hcr (by rw [this]; exact List.mem_cons_self)
          · cases h
      · rename_i t sc' rest' h
        have hsub := scanStep_sub m hv c rest _ h
        have hv' : ValidDelims sc'.delims := (scanStep_ok hv h).1
        obtain ⟨toks, e⟩ := scan_some fuel sc'.mode sc'.delims rest' hv' (fun h' => hcr (hsub h'))
        exact ⟨t.toList ++ toks, by rw [show sc' = ⟨sc'.mode, sc'.delims⟩ from rfl, e]; rfl⟩

end Boxes
