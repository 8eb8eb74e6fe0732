import Verif.Spec.Query
import Verif.Model.Query
import Verif.Lemmas.Config2
import Verif.Props.Tools
import Verif.Props.Ident

namespace Boxes
open Spec
set_option linter.unusedSimpArgs false

theorem strtok_eq : ∀ (s cur : Str), ','.toNat ∉ cur →
    strtokComma cur s = (commaSplit (cur.reverse ++ s)).filter (fun t => decide (t ≠ [])) := by
  intro s
  induction s with
  | nil =>
    intro cur hc
    rw [List.append_nil, commaSplit_none (by simpa using hc), strtokComma]
    cases cur <;> simp
  | cons c rest ih =>
    intro cur hc
    rw [strtokComma]
    by_cases h : c = chComma
    · rw [if_pos h, h]
      have : chComma = ','.toNat := rfl
      rw [this, commaSplit_append (by simpa using hc), ih [] (by simp)]
      cases cur <;> simp
    · rw [if_neg h, ih (c :: cur) (by
        intro hm
        rcases List.mem_cons.1 hm with e | e
        · exact h e.symm
        · exact hc e)]
      simp

theorem stripped_split (s : Str) : ∃ x y, s = x ++ strip s ++ y ∧ (∀ c ∈ x, c = 0x20 ∨ c = 0x09) ∧ (∀ c ∈ y, c = 0x20 ∨ c = 0x09) ∧
    (strip s = [] ∨ (∃ a, (strip s).head? = some a ∧ a ≠ 0x20 ∧ a ≠ 0x09) ∧
      ∃ z, (strip s).getLast? = some z ∧ z ≠ 0x20 ∧ z ≠ 0x09) := by
  let blank : Nat → Bool := fun c => decide (c = ' '.toNat ∨ c = '\t'.toNat)
  have hb : ∀ c, blank c = true ↔ c = 0x20 ∨ c = 0x09 := by intro c; simp [blank]
  have hbf : ∀ c, blank c = false ↔ c ≠ 0x20 ∧ c ≠ 0x09 := by intro c; simp [blank]
  have hst : strip s = ((s.dropWhile blank).reverse.dropWhile blank).reverse := rfl
  refine ⟨s.takeWhile blank, ((s.dropWhile blank).reverse.takeWhile blank).reverse, ?_, ?_, ?_, ?_⟩
  · rw [hst, List.append_assoc, ← List.reverse_append, List.takeWhile_append_dropWhile, List.reverse_reverse,
      List.takeWhile_append_dropWhile]
  · intro c hc; exact (hb c).1 (List.all_eq_true.1 List.all_takeWhile c hc)
  · intro c hc; exact (hb c).1 (List.all_eq_true.1 List.all_takeWhile c (List.mem_reverse.1 hc))
  · by_cases he : strip s = []
    · exact Or.inl he
    · right
      rw [hst] at he ⊢
      have hne : (s.dropWhile blank).reverse.dropWhile blank ≠ [] := by simpa using he
      constructor
      · obtain ⟨a, ha⟩ : ∃ a, ((s.dropWhile blank).reverse.dropWhile blank).getLast? = some a :=
          ⟨_, List.getLast?_eq_some_getLast hne⟩
        refine ⟨a, by rw [List.head?_reverse]; exact ha, ?_⟩
        have hl : (s.dropWhile blank).reverse.getLast? = some a := by
          rw [← List.takeWhile_append_dropWhile (p := blank) (l := (s.dropWhile blank).reverse), List.getLast?_append, ha]; rfl
        rw [List.getLast?_reverse] at hl
        have := List.head?_dropWhile_not blank s
        rw [hl] at this
        exact (hbf a).1 (by simpa using this)
      · obtain ⟨z, hz⟩ : ∃ z, ((s.dropWhile blank).reverse.dropWhile blank).head? = some z :=
          ⟨_, List.head?_eq_some_head hne⟩
        refine ⟨z, by rw [List.getLast?_reverse]; exact hz, ?_⟩
        have := List.head?_dropWhile_not blank (s.dropWhile blank).reverse
        rw [hz] at this
        exact (hbf z).1 (by simpa using this)

theorem trimdup_strip (q : Str) : (trimdup q 0 ((q.length : Int) - 1)).map (·.data) = some (strip q) := by
  cases hq : q with
  | nil => rw [C42_trimdup_empty [] 0 _ (by left; simp)]; rfl
  | cons c r =>
    rw [← hq]
    have hlen : 0 < q.length := by rw [hq]; simp
    obtain ⟨x, y, h1, h2, h3, h4⟩ := stripped_split q
    obtain ⟨b, e1, e2, -⟩ := C42_trimdup q 0 (q.length - 1) (by omega) (by omega) (x := x) (m := strip q) (y := y)
      (by rw [show q.length - 1 + 1 = q.length by omega, List.take_length]; simpa using h1) h2 h3 h4
    have : ((q.length : Int) - 1) = ((q.length - 1 : Nat) : Int) := by omega
    rw [this, e1, Option.map_some, e2]

theorem rawTag_eq (t : Str) : rawTag t = bare t := by
  unfold rawTag bare
  split <;> rfl

theorem carries_iff (tags : List Str) (t : Str) : arrayContains0 tags t = true ↔ Carries tags t := by
  unfold arrayContains0 Carries
  rw [List.any_eq_true]
  constructor
  · rintro ⟨x, hx, h⟩; exact ⟨x, hx, (sameName_iff _ _).1 h⟩
  · rintro ⟨x, hx, h⟩; exact ⟨x, hx, (sameName_iff _ _).2 h⟩

/-- what the loop accepts, for the trimmed terms -/
def Accept (ts : List Str) (query : List Str) : Prop :=
  (∀ t ∈ ts, bare t = everything ∨ tagIsValid (bare t) = true) ∧ (∀ t ∈ ts, ∀ e ∈ query, ¬ SameName (bare e) (bare t)) ∧
  ts.Pairwise (fun a b => ¬ SameName (bare a) (bare b))

theorem validateTag_iff (t : Str) : validateTag t = true ↔ t = everything ∨ tagIsValid t = true := by
  unfold validateTag
  rw [Bool.or_eq_true, beq_iff_eq]
  rfl

theorem parseQueryLoop_eq : ∀ (l : List Str) (query : List Str) (pos : Bool),
    let ts := (l.map strip).filter (fun t => decide (t ≠ []))
    (Accept ts query → parseQueryLoop l query pos = some (query ++ ts, pos || ts.any (fun t => t.head? != some chMinus))) ∧
    (¬ Accept ts query → parseQueryLoop l query pos = none) := by
  intro l
  induction l with
  | nil => intro query pos; simp [parseQueryLoop, Accept]
  | cons q rest ih =>
    intro query pos
    simp only
    rw [parseQueryLoop, trimdup_strip]
    simp only [Option.bind_eq_bind, Option.bind_some]
    by_cases he : strip q = []
    · have := ih query pos
      simp only at this
      simpa [he] using this
    · have hf : (List.map strip (q :: rest)).filter (fun t => decide (t ≠ [])) =
          strip q :: (rest.map strip).filter (fun t => decide (t ≠ [])) := by simp [he]
      rw [hf]
      rw [if_neg (by simpa using he)]
      generalize (rest.map strip).filter (fun t => decide (t ≠ [])) = ts at ih ⊢
      generalize strip q = t at he ⊢
      have ih' := ih (query ++ [t]) (if t.head? != some chMinus then true else pos)
      simp only at ih'
      rw [rawTag_eq]
      by_cases hv : validateTag (bare t) = true
      · rw [if_neg (by simp [hv])]
        have hv' := (validateTag_iff _).1 hv
        by_cases hd : query.any (fun e => strCaseEq (rawTag e) (bare t)) = true
        · rw [if_pos hd]
          refine ⟨?_, fun _ => rfl⟩
          intro ha
          obtain ⟨e, he', hs⟩ := List.any_eq_true.1 hd
          rw [rawTag_eq] at hs
          exact absurd ((sameName_iff _ _).1 hs) (ha.2.1 t (List.mem_cons_self) e he')
        · rw [if_neg hd]
          have hd' : ∀ e ∈ query, ¬ SameName (bare e) (bare t) := by
            intro e hm hs
            apply hd
            exact List.any_eq_true.2 ⟨e, hm, by rw [rawTag_eq]; exact (sameName_iff _ _).2 hs⟩
          have hiff : Accept (t :: ts) query ↔ Accept ts (query ++ [t]) := by
            unfold Accept
            constructor
            · rintro ⟨a, b, c⟩
              have c' := List.pairwise_cons.1 c
              refine ⟨fun x hx => a x (List.mem_cons_of_mem _ hx), ?_, c'.2⟩
              intro x hx e hm
              rcases List.mem_append.1 hm with hm | hm
              · exact b x (List.mem_cons_of_mem _ hx) e hm
              · rw [List.mem_singleton.1 hm]; exact c'.1 x hx
            · rintro ⟨a, b, c⟩
              refine ⟨?_, ?_, List.pairwise_cons.2 ⟨fun x hx => b x hx t (by simp), c⟩⟩
              · intro x hx
                rcases List.mem_cons.1 hx with e | e
                · rw [e]; exact hv'
                · exact a x e
              · intro x hx e hm
                rcases List.mem_cons.1 hx with e' | e'
                · rw [e']; exact hd' e hm
                · exact b x e' e (List.mem_append_left _ hm)
          constructor
          · intro ha
            rw [ih'.1 (hiff.1 ha)]
            simp only [List.append_assoc, List.singleton_append, List.any_cons]
            congr 2
            cases t.head? != some chMinus <;> cases pos <;> simp
          · intro ha
            exact ih'.2 (fun h => ha (hiff.2 h))
      · rw [if_pos (by simp [hv])]
        refine ⟨?_, fun _ => rfl⟩
        intro ha
        exact absurd ((validateTag_iff _).2 (ha.1 t List.mem_cons_self)) hv

theorem terms_eq (arg : Str) : ((strtokComma [] arg).map strip).filter (fun t => decide (t ≠ [])) = terms arg := by
  rw [strtok_eq arg [] (by simp), List.reverse_nil, List.nil_append]
  unfold terms
  generalize commaSplit arg = l
  induction l with
  | nil => rfl
  | cons a r ih =>
    by_cases h : a = []
    · subst h; simpa [strip] using ih
    · rw [List.filter_cons_of_pos (by simpa using h), List.map_cons, List.map_cons, List.filter_cons, List.filter_cons, ih]

theorem mem_terms_sub {arg t : Str} (h : t ∈ terms arg) : ∀ c ∈ t, c ∈ arg := by
  unfold terms at h
  obtain ⟨p, hp, rfl⟩ := List.mem_map.1 (List.mem_filter.1 h).1
  intro c hc
  obtain ⟨x, y, e, -⟩ := stripped_split p
  have hcp : c ∈ p := by rw [e]; simp [hc]
  clear hc h e
  induction arg generalizing p with
  | nil => simp [commaSplit] at hp; subst hp; simp at hcp
  | cons a r ih =>
    rw [commaSplit] at hp
    split at hp
    · rcases List.mem_cons.1 hp with e | e
      · subst e; simp at hcp
      · exact List.mem_cons_of_mem _ (ih p e hcp)
    · split at hp
      · simp at hp; subst hp; simp at hcp; simp [hcp]
      · rename_i p' ps hsp
        rcases List.mem_cons.1 hp with e | e
        · subst e
          rcases List.mem_cons.1 hcp with e' | e'
          · simp [e']
          · exact List.mem_cons_of_mem _ (ih p' (by rw [hsp]; simp) e')
        · exact List.mem_cons_of_mem _ (ih p (by rw [hsp]; simp [e]) hcp)

theorem filterLoop_eq (tags : List Str) : ∀ (q : List Str) (r : Bool), filterLoop tags q r = true ↔
    (∀ e ∈ q, ∀ t, Minus e t → ¬ Carries tags t) ∧ (∀ e ∈ q, ∀ t, Plus e t → Carries tags t) ∧
    (r = true ∨ ∃ e ∈ q, (∃ t, Plus e t) ∨ (Unsigned e ∧ Carries tags e)) := by
  intro q
  induction q with
  | nil => intro r; simp [filterLoop]
  | cons e rest ih =>
    intro r
    rw [filterLoop]
    by_cases hp : e.head? = some chPlus
    · rw [if_pos hp]
      obtain ⟨t, rfl⟩ : ∃ t, e = chPlus :: t := by
        cases e with
        | nil => simp at hp
        | cons a b => simp at hp; exact ⟨b, by rw [hp]⟩
      have hP : ∀ u, Plus (chPlus :: t) u ↔ u = t := by intro u; unfold Plus; simp [chPlus]; exact eq_comm
      have hM : ∀ u, ¬ Minus (chPlus :: t) u := by intro u; unfold Minus; simp [chPlus]
      have hc := carries_iff tags t
      by_cases h : arrayContains0 tags t = true
      · rw [if_neg (by simp [h]), ih]
        constructor
        · rintro ⟨a, b, -⟩
          refine ⟨?_, ?_, Or.inr ⟨_, List.mem_cons_self, Or.inl ⟨t, (hP t).2 rfl⟩⟩⟩
          · intro x hx u hu
            rcases List.mem_cons.1 hx with e' | e'
            · subst e'; exact absurd hu (hM u)
            · exact a x e' u hu
          · intro x hx u hu
            rcases List.mem_cons.1 hx with e' | e'
            · subst e'; rw [(hP u).1 hu]; exact hc.1 h
            · exact b x e' u hu
        · rintro ⟨a, b, -⟩
          exact ⟨fun x hx => a x (List.mem_cons_of_mem _ hx), fun x hx => b x (List.mem_cons_of_mem _ hx), Or.inl rfl⟩
      · rw [if_pos (by simp [h])]
        constructor
        · simp
        · rintro ⟨-, b, -⟩
          exact absurd (hc.2 (b _ List.mem_cons_self t ((hP t).2 rfl))) h
    · rw [if_neg hp]
      by_cases hm : e.head? = some chMinus
      · rw [if_pos hm]
        obtain ⟨t, rfl⟩ : ∃ t, e = chMinus :: t := by
          cases e with
          | nil => simp at hm
          | cons a b => simp at hm; exact ⟨b, by rw [hm]⟩
        have hM : ∀ u, Minus (chMinus :: t) u ↔ u = t := by intro u; unfold Minus; simp [chMinus]; exact eq_comm
        have hP : ∀ u, ¬ Plus (chMinus :: t) u := by intro u; unfold Plus; simp [chMinus]
        have hU : ¬ Unsigned (chMinus :: t) := fun hu => (hu t).1 rfl
        have hc := carries_iff tags t
        by_cases h : arrayContains0 tags t = true
        · rw [if_pos (by simpa using h)]
          constructor
          · simp
          · rintro ⟨a, -⟩
            exact absurd (hc.1 h) (a _ List.mem_cons_self t ((hM t).2 rfl))
        · rw [if_neg (by simpa using h), ih]
          have hnc : ¬ Carries tags t := fun x => h (hc.2 x)
          constructor
          · rintro ⟨a, b, c⟩
            refine ⟨?_, ?_, c.imp_right ?_⟩
            · intro x hx u hu
              rcases List.mem_cons.1 hx with e' | e'
              · subst e'; rw [(hM u).1 hu]; exact hnc
              · exact a x e' u hu
            · intro x hx u hu
              rcases List.mem_cons.1 hx with e' | e'
              · subst e'; exact absurd hu (hP u)
              · exact b x e' u hu
            · rintro ⟨x, hx, hr⟩; exact ⟨x, List.mem_cons_of_mem _ hx, hr⟩
          · rintro ⟨a, b, c⟩
            refine ⟨fun x hx => a x (List.mem_cons_of_mem _ hx), fun x hx => b x (List.mem_cons_of_mem _ hx), c.imp_right ?_⟩
            rintro ⟨x, hx, hr⟩
            rcases List.mem_cons.1 hx with e' | e'
            · subst e'
              rcases hr with ⟨u, hu⟩ | ⟨hu, -⟩
              · exact absurd hu (hP u)
              · exact absurd hu hU
            · exact ⟨x, e', hr⟩
      · rw [if_neg hm]
        have hM : ∀ u, ¬ Minus e u := by intro u hu; unfold Minus at hu; subst hu; exact hm rfl
        have hP : ∀ u, ¬ Plus e u := by intro u hu; unfold Plus at hu; subst hu; exact hp rfl
        have hU : Unsigned e := fun u => ⟨hM u, hP u⟩
        have hc := carries_iff tags e
        have hA : (∀ x ∈ e :: rest, ∀ t, Minus x t → ¬ Carries tags t) ↔ ∀ x ∈ rest, ∀ t, Minus x t → ¬ Carries tags t := by
          constructor
          · exact fun a x hx => a x (List.mem_cons_of_mem _ hx)
          · intro a x hx u hu
            rcases List.mem_cons.1 hx with e' | e'
            · subst e'; exact absurd hu (hM u)
            · exact a x e' u hu
        have hB : (∀ x ∈ e :: rest, ∀ t, Plus x t → Carries tags t) ↔ ∀ x ∈ rest, ∀ t, Plus x t → Carries tags t := by
          constructor
          · exact fun a x hx => a x (List.mem_cons_of_mem _ hx)
          · intro a x hx u hu
            rcases List.mem_cons.1 hx with e' | e'
            · subst e'; exact absurd hu (hP u)
            · exact a x e' u hu
        rw [hA, hB]
        by_cases h : arrayContains0 tags e = true
        · rw [if_pos h, ih]
          constructor
          · rintro ⟨a, b, -⟩
            exact ⟨a, b, Or.inr ⟨e, List.mem_cons_self, Or.inr ⟨hU, hc.1 h⟩⟩⟩
          · rintro ⟨a, b, -⟩
            exact ⟨a, b, Or.inl rfl⟩
        · rw [if_neg h, ih]
          refine ⟨fun ⟨a, b, c⟩ => ⟨a, b, c.imp_right ?_⟩, fun ⟨a, b, c⟩ => ⟨a, b, c.imp_right ?_⟩⟩
          · rintro ⟨x, hx, hr⟩; exact ⟨x, List.mem_cons_of_mem _ hx, hr⟩
          · rintro ⟨x, hx, hr⟩
            rcases List.mem_cons.1 hx with e' | e'
            · subst e'
              rcases hr with ⟨u, hu⟩ | ⟨-, hu⟩
              · exact absurd hu (hP u)
              · exact absurd (hc.2 hu) h
            · exact ⟨x, e', hr⟩

theorem strCaseLe_iff : ∀ (a b : Str), strCaseLe a b = true ↔ NameLe a b := by
  intro a
  induction a with
  | nil => intro b; simp [strCaseLe, NameLe]
  | cons x xs ih =>
    intro b
    cases b with
    | nil => simp [strCaseLe, NameLe]
    | cons y ys =>
      rw [strCaseLe]
      have hl : ∀ c, toLower c = lower c := fun c => rfl
      unfold NameLe at ih ⊢
      rw [hl, hl, List.map_cons, List.map_cons, List.cons_le_cons_iff, ← ih]
      by_cases h : lower x < lower y
      · simp [h]
      · rw [if_neg h]
        by_cases h2 : lower y < lower x
        · rw [if_pos h2]
          constructor
          · simp
          · rintro (a | ⟨a, -⟩) <;> omega
        · rw [if_neg h2]
          constructor
          · exact fun e => Or.inr ⟨by omega, e⟩
          · rintro (a | ⟨-, a⟩)
            · omega
            · exact a

theorem nameLe_trans {a b c : Str} (h : NameLe a b) (h2 : NameLe b c) : NameLe a c := List.le_trans h h2
theorem nameLe_total (a b : Str) : NameLe a b ∨ NameLe b a := List.le_total _ _
theorem nameLe_antisymm {a b : Str} (h : NameLe a b) (h2 : NameLe b a) : SameName a b := List.le_antisymm h h2

theorem insertBy_perm {α : Type} (le : α → α → Bool) (x : α) : ∀ l : List α, (insertBy le x l).Perm (x :: l) := by
  intro l
  induction l with
  | nil => exact List.Perm.refl _
  | cons y r ih =>
    rw [insertBy]
    split
    · exact List.Perm.refl _
    · exact (ih.cons y).trans (List.Perm.swap x y r)

theorem qsort_perm {α : Type} (le : α → α → Bool) : ∀ l : List α, (qsort le l).Perm l := by
  intro l
  induction l with
  | nil => exact List.Perm.refl _
  | cons x r ih => exact (insertBy_perm le x _).trans (ih.cons x)

theorem sort_pairwise {α : Type} (key : α → Str) (l : List α) :
    (qsort (fun a b => strCaseLe (key a) (key b)) l).Pairwise (fun a b => NameLe (key a) (key b)) := by
  have hins : ∀ (x : α) (m : List α), m.Pairwise (fun a b => NameLe (key a) (key b)) →
      (insertBy (fun a b => strCaseLe (key a) (key b)) x m).Pairwise (fun a b => NameLe (key a) (key b)) := by
    intro x m
    induction m with
    | nil => intro _; simp [insertBy]
    | cons y r ih =>
      intro hp
      have hp' := List.pairwise_cons.1 hp
      rw [insertBy]
      by_cases h : strCaseLe (key x) (key y) = true
      · rw [if_pos h]
        have h' := (strCaseLe_iff _ _).1 h
        refine List.pairwise_cons.2 ⟨?_, hp⟩
        intro z hz
        rcases List.mem_cons.1 hz with e | e
        · rw [e]; exact h'
        · exact nameLe_trans h' (hp'.1 z e)
      · rw [if_neg h]
        refine List.pairwise_cons.2 ⟨?_, ih hp'.2⟩
        intro z hz
        rcases List.mem_cons.1 ((insertBy_perm _ x r).mem_iff.1 hz) with e | e
        · rw [e]
          exact (nameLe_total (key x) (key y)).resolve_left (fun h' => h ((strCaseLe_iff _ _).2 h'))
        · exact hp'.1 z e
  induction l with
  | nil => exact List.Pairwise.nil
  | cons x r ih => exact hins x _ ih

/-- Two sorted permutations of elements with different names are equal. -/
theorem sorted_unique {α : Type} (key : α → Str) : ∀ {l l' : List α}, l.Perm l' →
    l.Pairwise (fun a b => NameLe (key a) (key b)) → l'.Pairwise (fun a b => NameLe (key a) (key b)) →
    l.Pairwise (fun a b => ¬ SameName (key a) (key b)) → l = l' := by
  intro l
  induction l with
  | nil => intro l' hp _ _ _; exact (List.nil_perm.1 hp).symm
  | cons a r ih =>
    intro l' hp h1 h2 h3
    cases l' with
    | nil => exact absurd hp.length_eq (by simp)
    | cons b r' =>
      have h1' := List.pairwise_cons.1 h1
      have h2' := List.pairwise_cons.1 h2
      have h3' := List.pairwise_cons.1 h3
      by_cases hab : a = b
      · subst hab
        rw [ih ((List.perm_cons a).1 hp) h1'.2 h2'.2 h3'.2]
      · have hbr : b ∈ r := by
          have : b ∈ a :: r := hp.mem_iff.2 List.mem_cons_self
          rcases List.mem_cons.1 this with e | e
          · exact absurd e.symm hab
          · exact e
        have har : a ∈ r' := by
          have : a ∈ b :: r' := hp.mem_iff.1 List.mem_cons_self
          rcases List.mem_cons.1 this with e | e
          · exact absurd e hab
          · exact e
        exact absurd (nameLe_antisymm (h1'.1 b hbr) (h2'.1 a har)) (h3'.1 b hbr)

end Boxes
