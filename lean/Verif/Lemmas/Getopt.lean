import Verif.Model.Getopt
import Verif.Spec.Getopt

/-!
# Lemmas about `getopt_long` and the option tables
-/
namespace Boxes
open Spec
set_option linter.unusedSimpArgs false

theorem switch_lookup {c : Char} {o : Option'} (h : (c, o) ∈ switchLetters) : shortLookup c.toNat = some false ∧ optionOf c.toNat [] = o := by
  have : ∀ p ∈ switchLetters, shortLookup p.1.toNat = some false ∧ optionOf p.1.toNat [] = p.2 := by decide +kernel
  exact this _ h

theorem value_lookup {c : Char} {f : Str → Option'} (h : (c, f) ∈ valueLetters) :
    shortLookup c.toNat = some true ∧ ∀ v, optionOf c.toNat v = f v := by
  simp only [valueLetters, List.mem_cons, Prod.mk.injEq, List.not_mem_nil, or_false] at h
  rcases h with ⟨rfl, rfl⟩ | ⟨rfl, rfl⟩ | ⟨rfl, rfl⟩ | ⟨rfl, rfl⟩ | ⟨rfl, rfl⟩ | ⟨rfl, rfl⟩ | ⟨rfl, rfl⟩ | ⟨rfl, rfl⟩ | ⟨rfl, rfl⟩ | ⟨rfl, rfl⟩ |
    ⟨rfl, rfl⟩ | ⟨rfl, rfl⟩ | ⟨rfl, rfl⟩ <;> exact ⟨by decide +kernel, fun v => rfl⟩

theorem short_char {c : Nat} {b : Bool} (h : shortLookup c = some b) :
    (b = false ∧ ∃ (ch : Char) (o : Option'), (ch, o) ∈ switchLetters ∧ c = ch.toNat ∧ optionOf c [] = o) ∨
    (b = true ∧ ∃ (ch : Char) (f : Str → Option'), (ch, f) ∈ valueLetters ∧ c = ch.toNat ∧ ∀ v, optionOf c v = f v) := by
  have hmem : c ∈ shortOptions := by
    unfold shortLookup at h
    split at h
    · simp at h
    · cases hd : shortOptions.dropWhile (fun d => d != c) with
      | nil =>
        rw [hd] at h
        simp at h
      | cons x r =>
        have hx := List.head?_dropWhile_not (p := fun d => d != c) shortOptions
        rw [hd] at hx
        simp only [List.head?_cons, bne_eq_false_iff_eq] at hx
        have hx' : x ∈ shortOptions := (List.dropWhile_sublist _).subset (by rw [hd]; simp)
        have : x = c := by simpa using hx
        exact this ▸ hx'
  have hall : ∀ x ∈ shortOptions, x ≠ ':'.toNat → (x ∈ switchLetters.map (fun p => p.1.toNat)) ∨ x ∈ valueLetters.map (fun p => p.1.toNat) := by
    decide +kernel
  have hne : c ≠ ':'.toNat := by
    intro hc
    rw [hc] at h
    exact absurd h (by cases b <;> decide +kernel)
  rcases hall c hmem hne with h1 | h1
  · obtain ⟨⟨ch, o⟩, h2, rfl⟩ := List.mem_map.1 h1
    obtain ⟨e1, e2⟩ := switch_lookup h2
    simp only at h e1
    rw [e1] at h
    exact .inl ⟨(Option.some.inj h).symm, ch, o, h2, rfl, e2⟩
  · obtain ⟨⟨ch, f⟩, h2, rfl⟩ := List.mem_map.1 h1
    obtain ⟨e1, e2⟩ := value_lookup h2
    simp only at h e1
    rw [e1] at h
    exact .inr ⟨(Option.some.inj h).symm, ch, f, h2, rfl, e2⟩

theorem letters_cluster {cs : Str} {ls : List Option'} (h : Letters cs ls) (r : Str) :
    shortCluster (cs ++ r) = (ls ++ (shortCluster r).1, (shortCluster r).2) := by
  induction h with
  | nil => simp
  | cons c o hc _ ih =>
    obtain ⟨e1, e2⟩ := switch_lookup hc
    simp only [List.cons_append, shortCluster, e1, e2, ih]

theorem value_cluster {c : Char} {f : Str → Option'} (h : (c, f) ∈ valueLetters) (v : Str) :
    shortCluster (c.toNat :: v) = if v = [] then ([], some c.toNat) else ([f v], none) := by
  obtain ⟨e1, e2⟩ := value_lookup h
  simp only [shortCluster, e1, e2]

/-- what a cluster of letters is -/
theorem cluster_cases (cs : Str) (hb : .bad ∉ (shortCluster cs).1) :
    ((shortCluster cs).2 = none ∧ Letters cs (shortCluster cs).1) ∨
    (∃ (ls : List Option') (cs' : Str) (c : Char) (f : Str → Option') (v : Str), Letters cs' ls ∧ (c, f) ∈ valueLetters ∧ cs = cs' ++ c.toNat :: v ∧
      ((v ≠ [] ∧ shortCluster cs = (ls ++ [f v], none)) ∨ (v = [] ∧ shortCluster cs = (ls, some c.toNat)))) := by
  induction cs with
  | nil => exact .inl ⟨rfl, .nil⟩
  | cons c r ih =>
    cases hl : shortLookup c with
    | none => simp [shortCluster, hl] at hb
    | some b =>
      rcases short_char hl with ⟨rfl, ch, o, hm, rfl, ho⟩ | ⟨rfl, ch, f, hm, rfl, hf⟩
      · have e : shortCluster (ch.toNat :: r) = (o :: (shortCluster r).1, (shortCluster r).2) := by simp only [shortCluster, hl, ho]
        rw [e] at hb ⊢
        rcases ih (fun h => hb (List.mem_cons_of_mem _ h)) with ⟨h1, h2⟩ | ⟨ls, cs', c', f, v, h1, h2, h3, h4⟩
        · exact .inl ⟨h1, .cons ch o hm h2⟩
        · refine .inr ⟨o :: ls, ch.toNat :: cs', c', f, v, .cons ch o hm h1, h2, by rw [h3]; rfl, ?_⟩
          rcases h4 with ⟨h4, h5⟩ | ⟨h4, h5⟩
          · exact .inl ⟨h4, by rw [h5]; rfl⟩
          · exact .inr ⟨h4, by rw [h5]⟩
      · refine .inr ⟨[], [], ch, f, r, .nil, hm, rfl, ?_⟩
        rw [value_cluster hm]
        by_cases hr : r = []
        · exact .inr ⟨hr, by rw [if_pos hr]⟩
        · exact .inl ⟨hr, by rw [if_neg hr]; rfl⟩

/-! ### Long options -/

theorem long_names : longOptions.map (·.1) = ["align", "create", "color", "no-color", "design", "eol", "config", "help", "indent", "kill-blank",
    "no-kill-blank", "list", "mend", "encoding", "padding", "tag-query", "remove", "size", "tabs", "version", "extra"] := rfl

theorem names_same (k : String) : k ∈ switchWords.map (·.1) ++ valueWords.map (·.1) ↔ k ∈ longOptions.map (·.1) := by
  have h1 : ∀ k ∈ switchWords.map (·.1) ++ valueWords.map (·.1), k ∈ longOptions.map (·.1) := by decide +kernel
  have h2 : ∀ k ∈ longOptions.map (·.1), k ∈ switchWords.map (·.1) ++ valueWords.map (·.1) := by decide +kernel
  exact ⟨h1 k, h2 k⟩

theorem long_unique : ∀ e ∈ longOptions, ∀ e' ∈ longOptions, e.1 = e'.1 → e = e' := by decide +kernel

theorem lit_inj_long : ∀ e ∈ longOptions, ∀ e' ∈ longOptions, lit e.1 = lit e'.1 → e = e' := by decide +kernel

theorem long_lookup_of {w : Str} {e : String × Bool × Nat} (he : e ∈ longOptions) (h : Calls w e.1) : longLookup w = some e.2 := by
  unfold longLookup
  rcases h with rfl | ⟨h1, h2⟩
  · cases hf : longOptions.find? (fun x => lit x.1 == word e.1) with
    | none => exact absurd (List.find?_eq_none.1 hf e he) (by simp [word, lit])
    | some x =>
      have hx := List.find?_some hf
      have : x = e := lit_inj_long x (List.mem_of_find?_eq_some hf) e he (by simpa [word, lit] using hx)
      rw [this]
  · have uniq : ∀ x ∈ longOptions, w <+: lit x.1 → x = e := fun x hx hp =>
      long_unique x hx e he (h2 x.1 ((names_same _).2 (List.mem_map_of_mem hx)) hp)
    cases hf : longOptions.find? (fun x => lit x.1 == w) with
    | some x =>
      have hx := List.find?_some hf
      have : x = e := uniq x (List.mem_of_find?_eq_some hf) (by
        have : lit x.1 = w := by simpa using hx
        rw [this]; exact List.prefix_refl _)
      rw [this]
    | none =>
      have hfil : longOptions.filter (fun x => w.isPrefixOf (lit x.1)) = [e] := by
        have hnd : longOptions.Nodup := by decide +kernel
        have : ∀ l : List (String × Bool × Nat), l.Nodup → (∀ x ∈ l, w <+: lit x.1 → x = e) → e ∈ l →
            l.filter (fun x => w.isPrefixOf (lit x.1)) = [e] := by
          intro l
          induction l with
          | nil => intro _ _ h; simp at h
          | cons a l ih =>
            intro hnd hu hm
            obtain ⟨ha, hnd'⟩ := List.nodup_cons.1 hnd
            rcases List.mem_cons.1 hm with rfl | hm'
            · rw [List.filter_cons_of_pos (by simpa [word, lit] using h1), List.filter_eq_nil_iff.2]
              intro x hx hp
              have := hu x (List.mem_cons_of_mem _ hx) (by simpa using hp)
              exact ha (this ▸ hx)
            · rw [List.filter_cons_of_neg (by
                intro hp
                have := hu a (by simp) (by simpa using hp)
                exact ha (this ▸ hm'))]
              exact ih hnd' (fun x hx => hu x (List.mem_cons_of_mem _ hx)) hm'
        exact this longOptions hnd uniq he
      simp only [hfil]

theorem calls_of_lookup {w : Str} {r : Bool × Nat} (h : longLookup w = some r) : ∃ e ∈ longOptions, e.2 = r ∧ Calls w e.1 := by
  unfold longLookup at h
  cases hf : longOptions.find? (fun x => lit x.1 == w) with
  | some x =>
    rw [hf] at h
    refine ⟨x, List.mem_of_find?_eq_some hf, by simpa using h, .inl ?_⟩
    have hx := List.find?_some hf
    have : lit x.1 = w := by simpa using hx
    rw [← this]; rfl
  | none =>
    rw [hf] at h
    simp only at h
    split at h
    · rename_i e hfil
      have hmem : e ∈ longOptions.filter (fun x => w.isPrefixOf (lit x.1)) := by rw [hfil]; simp
      obtain ⟨hm, hp⟩ := List.mem_filter.1 hmem
      refine ⟨e, hm, by simpa using h, .inr ⟨by simpa [word, lit] using hp, ?_⟩⟩
      intro k' hk' hp'
      obtain ⟨x, hx, rfl⟩ := List.mem_map.1 ((names_same k').1 hk')
      have : x ∈ longOptions.filter (fun x => w.isPrefixOf (lit x.1)) := List.mem_filter.2 ⟨hx, by simpa [word, lit] using hp'⟩
      rw [hfil] at this
      rw [List.mem_singleton.1 this]
    · simp at h

theorem switch_entry {k : String} {o : Option'} (h : (k, o) ∈ switchWords) : ∃ code, (k, false, code) ∈ longOptions ∧ optionOf code [] = o := by
  simp only [switchWords, List.mem_cons, Prod.mk.injEq, List.not_mem_nil, or_false] at h
  rcases h with ⟨rfl, rfl⟩ | ⟨rfl, rfl⟩ | ⟨rfl, rfl⟩ | ⟨rfl, rfl⟩ | ⟨rfl, rfl⟩ | ⟨rfl, rfl⟩ | ⟨rfl, rfl⟩ | ⟨rfl, rfl⟩ | ⟨rfl, rfl⟩ <;>
    simp [longOptions] <;> rfl

theorem value_entry {k : String} {f : Str → Option'} (h : (k, f) ∈ valueWords) :
    ∃ code, (k, true, code) ∈ longOptions ∧ ∀ v, optionOf code v = f v := by
  simp only [valueWords, List.mem_cons, Prod.mk.injEq, List.not_mem_nil, or_false] at h
  rcases h with ⟨rfl, rfl⟩ | ⟨rfl, rfl⟩ | ⟨rfl, rfl⟩ | ⟨rfl, rfl⟩ | ⟨rfl, rfl⟩ | ⟨rfl, rfl⟩ | ⟨rfl, rfl⟩ | ⟨rfl, rfl⟩ | ⟨rfl, rfl⟩ | ⟨rfl, rfl⟩ |
    ⟨rfl, rfl⟩ | ⟨rfl, rfl⟩ <;> simp [longOptions] <;> intro v <;> rfl

theorem entry_cases {e : String × Bool × Nat} (h : e ∈ longOptions) :
    (e.2.1 = false ∧ ∃ o, (e.1, o) ∈ switchWords ∧ optionOf e.2.2 [] = o) ∨
    (e.2.1 = true ∧ ∃ f, (e.1, f) ∈ valueWords ∧ ∀ v, optionOf e.2.2 v = f v) := by
  have h1 : ∀ e ∈ longOptions, e.2.1 = false → e.1 ∈ switchWords.map (·.1) := by decide +kernel
  have h2 : ∀ e ∈ longOptions, e.2.1 = true → e.1 ∈ valueWords.map (·.1) := by decide +kernel
  cases hb : e.2.1 with
  | false =>
    obtain ⟨⟨k, o⟩, hk, he⟩ := List.mem_map.1 (h1 e h hb)
    simp only at he
    obtain ⟨code, hc, ho⟩ := switch_entry hk
    have : (k, false, code) = e := long_unique _ hc _ h he
    exact .inl ⟨rfl, o, he ▸ hk, by rw [← this]; exact ho⟩
  | true =>
    obtain ⟨⟨k, f⟩, hk, he⟩ := List.mem_map.1 (h2 e h hb)
    simp only at he
    obtain ⟨code, hc, ho⟩ := value_entry hk
    have : (k, true, code) = e := long_unique _ hc _ h he
    exact .inr ⟨rfl, f, he ▸ hk, by rw [← this]; exact ho⟩

theorem calls_clean {w : Str} {e : String × Bool × Nat} (he : e ∈ longOptions) (h : Calls w e.1) : '='.toNat ∉ w ∧ w ≠ [] := by
  have hc : ∀ e ∈ longOptions, '='.toNat ∉ lit e.1 ∧ lit e.1 ≠ [] := by decide +kernel
  rcases h with rfl | ⟨h1, h2⟩
  · exact hc e he
  · refine ⟨fun hm => (hc e he).1 (h1.subset hm), ?_⟩
    rintro rfl
    have ha := h2 "align" (by decide) (by simp)
    have hb := h2 "create" (by decide) (by simp)
    rw [← ha] at hb
    exact absurd hb (by decide)

end Boxes
