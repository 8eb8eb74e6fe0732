import Verif.Lemmas.Getopt

/-!
# C75: how options are written
-/
namespace Boxes
open Spec
set_option linter.unusedSimpArgs false

theorem takeWhile_all {w : Str} {p : Nat → Bool} (h : ∀ c ∈ w, p c = true) : w.takeWhile p = w := by
  have := List.takeWhile_append_of_pos (l₂ := []) h
  simpa using this

theorem words_value (code : Nat) (v : Str) (rest : List Str) :
    getoptWords (some code) (v :: rest) = (optionOf code v :: (getoptWords none rest).1, (getoptWords none rest).2) := by
  rw [getoptWords]

theorem long_word {w : Str} {e : String × Bool × Nat} (he : e ∈ longOptions) (h : Calls w e.1) :
    longWord w = (if e.2.1 then ([], some e.2.2) else ([optionOf e.2.2 []], none)) ∧
    ∀ v, longWord (w ++ '='.toNat :: v) = (if e.2.1 then ([optionOf e.2.2 v], none) else ([.bad], none)) := by
  obtain ⟨hq, -⟩ := calls_clean he h
  have hne : ∀ c ∈ w, (c != '='.toNat) = true := by
    intro c hc
    simp only [bne_iff_ne, ne_eq]
    rintro rfl
    exact hq hc
  have hl := long_lookup_of he h
  obtain ⟨k, b, code⟩ := e
  constructor
  · have ht : w.takeWhile (fun c => c != '='.toNat) = w := takeWhile_all hne
    unfold longWord
    simp only [ht, hl, List.drop_length]
    cases b <;> rfl
  · intro v
    have ht : (w ++ '='.toNat :: v).takeWhile (fun c => c != '='.toNat) = w := by
      rw [List.takeWhile_append_of_pos hne, List.takeWhile_cons_of_neg (by simp)]
      simp
    unfold longWord
    simp only [ht, hl, List.drop_left]
    cases b <;> rfl

theorem words_long (w : Str) (hw : w ≠ []) (rest : List Str) :
    getoptWords none ((word "--" ++ w) :: rest) =
      ((longWord w).1 ++ (getoptWords (longWord w).2 rest).1, (getoptWords (longWord w).2 rest).2) := by
  have h1 : word "--" ++ w ≠ lit "--" := by
    intro h
    have := congrArg List.length h
    simp [word, lit] at this
    exact hw (List.length_eq_zero_iff.1 (by simpa using this))
  have h2 : (lit "--").isPrefixOf (word "--" ++ w) = true := by simp [word, lit]
  have h3 : (word "--" ++ w).drop 2 = w := rfl
  rw [getoptWords]
  simp only [if_neg h1, h2, if_true, h3]

theorem words_short (cs : Str) (hc : cs ≠ []) (hd : cs.head? ≠ some '-'.toNat) (rest : List Str) :
    getoptWords none (('-'.toNat :: cs) :: rest) =
      ((shortCluster cs).1 ++ (getoptWords (shortCluster cs).2 rest).1, (getoptWords (shortCluster cs).2 rest).2) := by
  obtain ⟨c, r, rfl⟩ := List.exists_cons_of_ne_nil hc
  have hc' : c ≠ '-'.toNat := by simpa using hd
  have h1 : '-'.toNat :: c :: r ≠ lit "--" := by
    intro h
    rw [show lit "--" = ['-'.toNat, '-'.toNat] from rfl] at h
    injection h with _ h
    injection h with h _
    exact hc' h
  have h2 : (lit "--").isPrefixOf ('-'.toNat :: c :: r) = false := by
    cases hp : (lit "--").isPrefixOf ('-'.toNat :: c :: r) with
    | false => rfl
    | true =>
      exfalso
      rw [show lit "--" = ['-'.toNat, '-'.toNat] from rfl, List.isPrefixOf_iff_prefix, List.cons_prefix_cons, List.cons_prefix_cons] at hp
      exact hc' hp.2.1.symm
  have h3 : ((lit "-").isPrefixOf ('-'.toNat :: c :: r) && ('-'.toNat :: c :: r) != lit "-") = true := by
    rw [Bool.and_eq_true]
    exact ⟨by simp [lit], by simp [lit]⟩
  rw [getoptWords]
  simp only [if_neg h1, h2, h3, if_true, Bool.false_eq_true, if_false]
  rfl

theorem words_file (w : Str) (h : IsFile w) (rest : List Str) :
    getoptWords none (w :: rest) = ((getoptWords none rest).1, w :: (getoptWords none rest).2) := by
  have hc : (w = lit "-") ∨ ((lit "-").isPrefixOf w = false) := by
    rcases h with h | h
    · right
      cases w with
      | nil => rfl
      | cons c r =>
        have hc' : c ≠ '-'.toNat := by simpa using h
        cases hp : (lit "-").isPrefixOf (c :: r) with
        | false => rfl
        | true =>
          rw [show lit "-" = ['-'.toNat] from rfl, List.isPrefixOf_iff_prefix, List.cons_prefix_cons] at hp
          exact absurd hp.1.symm hc'
    · exact .inl h
  have h1 : w ≠ lit "--" := by
    rintro rfl
    exact absurd hc (by decide)
  have h2 : (lit "--").isPrefixOf w = false := by
    rcases hc with rfl | hc
    · decide
    · cases hp : (lit "--").isPrefixOf w with
      | false => rfl
      | true =>
        rw [List.isPrefixOf_iff_prefix] at hp
        obtain ⟨t, rfl⟩ := hp
        simp [lit] at hc
  have h3 : ((lit "-").isPrefixOf w && w != lit "-") = false := by
    rcases hc with rfl | hc
    · decide
    · rw [hc]; rfl
  rw [getoptWords]
  simp only [if_neg h1, h2, h3, Bool.false_eq_true, if_false]

theorem letters_head {cs : Str} {ls : List Option'} (h : Letters cs ls) (r : Str) (hr : r.head? ≠ some '-'.toNat) : (cs ++ r).head? ≠ some '-'.toNat := by
  cases h with
  | nil => exact hr
  | cons c o hc _ =>
    have : ∀ p ∈ switchLetters, p.1.toNat ≠ '-'.toNat := by decide +kernel
    simpa using this _ hc

theorem value_head {c : Char} {f : Str → Option'} (h : (c, f) ∈ valueLetters) (v : Str) : (c.toNat :: v).head? ≠ some '-'.toNat := by
  have : ∀ x ∈ valueLetters.map (fun p => p.1.toNat), x ≠ '-'.toNat := by decide +kernel
  simpa using this _ (List.mem_map_of_mem h)

theorem optionOf_switch_good : (∀ p ∈ switchLetters, p.2 ≠ .bad) ∧ (∀ p ∈ switchWords, p.2 ≠ .bad) := by decide +kernel

theorem value_good {c : Char} {f : Str → Option'} (h : (c, f) ∈ valueLetters) (v : Str) : f v ≠ .bad := by
  simp only [valueLetters, List.mem_cons, Prod.mk.injEq, List.not_mem_nil, or_false] at h
  rcases h with ⟨_, rfl⟩ | ⟨_, rfl⟩ | ⟨_, rfl⟩ | ⟨_, rfl⟩ | ⟨_, rfl⟩ | ⟨_, rfl⟩ | ⟨_, rfl⟩ | ⟨_, rfl⟩ | ⟨_, rfl⟩ | ⟨_, rfl⟩ |
    ⟨_, rfl⟩ | ⟨_, rfl⟩ | ⟨_, rfl⟩ <;> simp

theorem word_good {k : String} {f : Str → Option'} (h : (k, f) ∈ valueWords) (v : Str) : f v ≠ .bad := by
  simp only [valueWords, List.mem_cons, Prod.mk.injEq, List.not_mem_nil, or_false] at h
  rcases h with ⟨_, rfl⟩ | ⟨_, rfl⟩ | ⟨_, rfl⟩ | ⟨_, rfl⟩ | ⟨_, rfl⟩ | ⟨_, rfl⟩ | ⟨_, rfl⟩ | ⟨_, rfl⟩ | ⟨_, rfl⟩ | ⟨_, rfl⟩ |
    ⟨_, rfl⟩ | ⟨_, rfl⟩ <;> simp

theorem letters_good {cs : Str} {ls : List Option'} (h : Letters cs ls) : .bad ∉ ls := by
  induction h with
  | nil => simp
  | cons c o hc _ ih =>
    simp only [List.mem_cons, not_or]
    exact ⟨fun h => optionOf_switch_good.1 _ hc h.symm, ih⟩

theorem reading_words {argv : List Str} {os : List Option'} {fs : List Str} (h : Reading argv os fs) :
    getoptWords none argv = (os, fs) ∧ .bad ∉ os := by
  induction h with
  | done => exact ⟨rfl, by simp⟩
  | stop rest =>
    refine ⟨?_, by simp⟩
    rw [getoptWords]
    simp only [show word "--" = lit "--" from rfl, if_true]
  | file w hw _ ih =>
    rw [words_file w hw, ih.1]
    exact ⟨rfl, ih.2⟩
  | letters cs ls hne hl _ ih =>
    have hc := letters_cluster hl []
    rw [List.append_nil] at hc
    have hd := letters_head hl [] (by simp)
    rw [List.append_nil] at hd
    rw [words_short cs hne hd, hc]
    simp only [shortCluster, List.append_nil, ih.1, List.mem_append, not_or]
    exact ⟨trivial, letters_good hl, ih.2⟩
  | attached cs ls c f v hl hv hne _ ih =>
    have hc := letters_cluster hl (c.toNat :: v)
    rw [value_cluster hv, if_neg hne] at hc
    rw [words_short _ (by simp) (letters_head hl _ (value_head hv v)), hc]
    simp only [ih.1, List.append_assoc, List.singleton_append, List.mem_append, List.mem_cons, not_or]
    exact ⟨trivial, letters_good hl, fun h => value_good hv v h.symm, ih.2⟩
  | separate cs ls c f v hl hv _ ih =>
    have hc := letters_cluster hl [c.toNat]
    rw [value_cluster hv, if_pos rfl] at hc
    rw [words_short _ (by simp) (letters_head hl _ (value_head hv [])), hc]
    have e := words_value c.toNat v
    simp only [e, ih.1, List.append_nil, (value_lookup hv).2, List.mem_append, List.mem_cons, not_or]
    exact ⟨trivial, letters_good hl, fun h => value_good hv v h.symm, ih.2⟩
  | long w k o hw ho _ ih =>
    obtain ⟨code, he, hc⟩ := switch_entry ho
    rw [words_long w (calls_clean he hw).2, (long_word he hw).1]
    simp only [Bool.false_eq_true, if_false, ih.1, hc, List.singleton_append, List.mem_cons, not_or]
    exact ⟨trivial, fun h => optionOf_switch_good.2 _ ho h.symm, ih.2⟩
  | longAttached w k f v hw hf _ ih =>
    obtain ⟨code, he, hc⟩ := value_entry hf
    rw [List.append_assoc, words_long _ (by simp), (long_word he hw).2]
    simp only [if_true, ih.1, hc, List.singleton_append, List.mem_cons, not_or]
    exact ⟨trivial, fun h => word_good hf v h.symm, ih.2⟩
  | longSeparate w k f v hw hf _ ih =>
    obtain ⟨code, he, hc⟩ := value_entry hf
    rw [words_long w (calls_clean he hw).2, (long_word he hw).1]
    have e := words_value code v
    simp only [if_true, e, ih.1, hc, List.nil_append, List.mem_cons, not_or]
    exact ⟨trivial, fun h => word_good hf v h.symm, ih.2⟩

theorem words_reading : ∀ (n : Nat) (argv : List Str), argv.length ≤ n → .bad ∉ (getoptWords none argv).1 →
    Reading argv (getoptWords none argv).1 (getoptWords none argv).2 := by
  intro n
  induction n with
  | zero =>
    intro argv hn _
    rw [List.length_eq_zero_iff.1 (Nat.le_zero.1 hn)]
    exact .done
  | succ n ih =>
    intro argv hn hb
    cases argv with
    | nil => exact .done
    | cons w rest =>
      have hrest : rest.length ≤ n := by simpa using hn
      by_cases hf : IsFile w
      · rw [words_file w hf] at hb ⊢
        exact .file w hf (ih rest hrest hb)
      · unfold IsFile at hf
        obtain ⟨hf1, hf2⟩ := not_or.1 hf
        obtain ⟨c, r, rfl⟩ : ∃ c r, w = c :: r := by
          cases w with
          | nil => simp at hf1
          | cons c r => exact ⟨c, r, rfl⟩
        have hc : c = '-'.toNat := by
          have := Classical.not_not.1 hf1
          simpa using this
        subst hc
        by_cases h2 : r.head? = some '-'.toNat
        · obtain ⟨u, rfl⟩ : ∃ u, r = '-'.toNat :: u := by
            cases r with
            | nil => simp at h2
            | cons d u =>
              simp only [List.head?_cons, Option.some.injEq] at h2
              exact ⟨u, by rw [h2]⟩
          by_cases hu : u = []
          · subst hu
            exact .stop rest
          · have e := words_long u hu rest
            rw [show word "--" ++ u = '-'.toNat :: '-'.toNat :: u from rfl] at e
            rw [e] at hb ⊢
            -- the long option
            cases hl : longLookup (u.takeWhile (fun c => c != '='.toNat)) with
            | none =>
              exfalso
              apply hb
              have : longWord u = ([.bad], none) := by
                unfold longWord
                simp only [hl]
              rw [this]
              simp
            | some bc =>
              obtain ⟨e0, he, rfl, hcalls⟩ := calls_of_lookup hl
              obtain ⟨w1, w2⟩ := long_word he hcalls
              cases hv : u.drop (u.takeWhile (fun c => c != '='.toNat)).length with
              | nil =>
                have hu' : u.takeWhile (fun c => c != '='.toNat) = u := by
                  have h1 := List.takeWhile_append_dropWhile (p := fun c => c != '='.toNat) (l := u)
                  have h2 := congrArg List.length h1
                  have h3 := List.drop_eq_nil_iff.1 hv
                  rw [List.length_append] at h2
                  have h4 : (u.dropWhile (fun c => c != '='.toNat)) = [] := List.length_eq_zero_iff.1 (by omega)
                  rw [h4, List.append_nil] at h1
                  exact h1
                rw [hu'] at w1 hcalls
                rcases entry_cases he with ⟨hs, o, ho, hco⟩ | ⟨hs, f, hfm, hco⟩
                · rw [hs] at w1
                  simp only [Bool.false_eq_true, if_false] at w1
                  rw [w1] at hb ⊢
                  simp only [hco, List.singleton_append] at hb ⊢
                  exact .long u e0.1 o hcalls ho (ih rest hrest (fun h => hb (List.mem_cons_of_mem _ h)))
                · rw [hs] at w1
                  simp only [if_true] at w1
                  rw [w1] at hb ⊢
                  cases rest with
                  | nil =>
                    exfalso
                    apply hb
                    simp [getoptWords]
                  | cons v rest' =>
                    have e1 := words_value e0.2.2 v rest'
                    rw [e1] at hb ⊢
                    simp only [hco, List.nil_append] at hb ⊢
                    exact .longSeparate u e0.1 f v hcalls hfm
                      (ih rest' (by simp at hrest; omega) (fun h => hb (List.mem_cons_of_mem _ h)))
              | cons q v =>
                have hspl := List.takeWhile_append_dropWhile (p := fun c => c != '='.toNat) (l := u)
                have hdw : u.dropWhile (fun c => c != '='.toNat) = q :: v := by
                  have := congrArg (fun l => l.drop (u.takeWhile (fun c => c != '='.toNat)).length) hspl
                  simp only [List.drop_left] at this
                  rw [this, hv]
                have hq : q = '='.toNat := by
                  have hx := List.head?_dropWhile_not (p := fun d => d != '='.toNat) u
                  rw [hdw] at hx
                  simpa using hx
                subst hq
                rw [hdw] at hspl
                have hu' := w2 v
                rw [hspl] at hu'
                rcases entry_cases he with ⟨hs, o, ho, hco⟩ | ⟨hs, f, hfm, hco⟩
                · exfalso
                  rw [hs] at hu'
                  simp only [Bool.false_eq_true, if_false] at hu'
                  rw [hu'] at hb
                  exact hb (by simp)
                · rw [hs] at hu'
                  simp only [if_true] at hu'
                  rw [hu'] at hb ⊢
                  simp only [hco, List.singleton_append] at hb ⊢
                  have := Reading.longAttached _ e0.1 f v hcalls hfm (ih rest hrest (fun h => hb (List.mem_cons_of_mem _ h)))
                  rw [List.append_assoc, hspl] at this
                  exact this
        · have hr : r ≠ [] := by
            rintro rfl
            exact hf2 rfl
          have e := words_short r hr h2 rest
          rw [e] at hb ⊢
          have hb1 : .bad ∉ (shortCluster r).1 := fun h => hb (List.mem_append_left _ h)
          rcases cluster_cases r hb1 with ⟨hp, hl⟩ | ⟨ls, cs', c, f, v, hl, hv, rfl, ⟨hne, hcl⟩ | ⟨rfl, hcl⟩⟩
          · rw [hp] at hb ⊢
            exact .letters r _ hr hl (ih rest hrest (fun h => hb (List.mem_append_right _ h)))
          · rw [hcl] at hb ⊢
            simp only [List.append_assoc, List.singleton_append] at hb ⊢
            exact .attached cs' ls c f v hl hv hne (ih rest hrest (fun h => hb (List.mem_append_right _ (List.mem_cons_of_mem _ h))))
          · rw [hcl] at hb ⊢
            cases rest with
            | nil =>
              exfalso
              apply hb
              simp [getoptWords]
            | cons v rest' =>
              have e1 := words_value c.toNat v rest'
              rw [e1] at hb ⊢
              simp only [(value_lookup hv).2] at hb ⊢
              exact .separate cs' ls c f v hl hv
                (ih rest' (by simp at hrest; omega) (fun h => hb (List.mem_append_right _ (List.mem_cons_of_mem _ h))))

/-- C75: arguments are understood as options and file names in exactly the documented ways of writing them.  If they are not written in one of
these ways, an error is among the reported options. -/
theorem C75_reading (argv : List Str) (os : List Option') (fs : List Str) :
    Reading argv os fs ↔ (commandLineOf argv).options = os ∧ (commandLineOf argv).files = fs ∧ .bad ∉ os := by
  constructor
  · intro h
    obtain ⟨h1, h2⟩ := reading_words h
    unfold commandLineOf
    rw [h1]
    exact ⟨rfl, rfl, h2⟩
  · rintro ⟨rfl, rfl, h⟩
    exact words_reading _ argv (Nat.le_refl _) h

/-- C75: arguments can be read in one way only. -/
theorem C75_unique {argv : List Str} {os os' : List Option'} {fs fs' : List Str} (h : Reading argv os fs) (h' : Reading argv os' fs') :
    os = os' ∧ fs = fs' := by
  obtain ⟨h1, h2, -⟩ := (C75_reading _ _ _).1 h
  obtain ⟨h3, h4, -⟩ := (C75_reading _ _ _).1 h'
  exact ⟨h1.symm.trans h3, h2.symm.trans h4⟩

theorem reading_question {argv : List Str} {os : List Option'} {fs : List Str} (h : Reading argv os fs) : argv.head? ≠ some (word "-?") := by
  intro hq
  cases argv with
  | nil => simp at hq
  | cons w rest =>
    simp only [List.head?_cons, Option.some.injEq] at hq
    subst hq
    obtain ⟨h1, h2⟩ := reading_words h
    have e := words_short ['?'.toNat] (by simp) (by decide) rest
    rw [show word "-?" = '-'.toNat :: ['?'.toNat] from rfl, e, show shortCluster ['?'.toNat] = ([.bad], none) by decide +kernel] at h1
    simp only [Prod.mk.injEq] at h1
    rw [← h1.1] at h2
    exact h2 (by simp)

/-- C75: the result of the program depends only on the options and file names that are meant, each in their order, not on how they are written and in
which order options and file names are mixed. -/
theorem C75_same {argv argv' : List Str} {os : List Option'} {fs : List Str} (h : Reading argv os fs) (h' : Reading argv' os fs) (m : Machine) (fuel : Nat) :
    boxesMain m argv fuel = boxesMain m argv' fuel := by
  have hf := reading_question h
  have hf' := reading_question h'
  unfold boxesMain commandLineOf wholeProgram processCommandline
  simp only [(reading_words h).1, (reading_words h').1]
  rw [if_neg (show argv.head? ≠ some (lit "-?") from hf), if_neg (show argv'.head? ≠ some (lit "-?") from hf')]

/-- C75: arguments which cannot be read end the program with an error, unless help or the version is requested in front of the first mistake, or the
first argument is `-?`, which requests help. -/
theorem C75_refused (argv : List Str) (m : Machine) (fuel : Nat) :
    (argv.head? = some (word "-?") → boxesMain m argv fuel = some (.ok .usage)) ∧
    ((∀ os fs, ¬ Reading argv os fs) → ∃ good rest, (commandLineOf argv).options = good ++ .bad :: rest ∧ .bad ∉ good ∧
      (argv.head? ≠ some (word "-?") → .help ∉ good → .version ∉ good → boxesMain m argv fuel = some (.fail 1))) := by
  constructor
  · intro h
    unfold boxesMain wholeProgram processCommandline commandLineOf
    simp only
    rw [if_pos (show argv.head? = some (lit "-?") from h)]
    rfl
  · intro hno
    have hb : .bad ∈ (commandLineOf argv).options := Classical.byContradiction fun hb => hno _ _ ((C75_reading argv _ _).2 ⟨rfl, rfl, hb⟩)
    obtain ⟨good, rest, he, hg⟩ := List.eq_append_cons_of_mem hb
    refine ⟨good, rest, he, hg, fun hq hh hv => ?_⟩
    have key : ∀ (x : Option') (l : List Option') (a : Args), x ≠ .help → x ≠ .version → x ≠ .bad →
        optionLoop (x :: l) a = (handleOption a x).bind (fun a => optionLoop l a) := by
      intro x l a h1 h2 h3
      cases x <;> first | rfl | exact absurd rfl h1 | exact absurd rfl h2 | exact absurd rfl h3
    have hloop : ∀ (l : List Option') (a : Args), .bad ∉ l → .help ∉ l → .version ∉ l → optionLoop (l ++ .bad :: rest) a = none := by
      intro l
      induction l with
      | nil => intro a _ _ _; rfl
      | cons x l ih =>
        intro a h1 h2 h3
        simp only [List.mem_cons, not_or] at h1 h2 h3
        rw [List.cons_append, key x _ a (fun h => h2.1 h.symm) (fun h => h3.1 h.symm) (fun h => h1.1 h.symm)]
        cases handleOption a x with
        | none => rfl
        | some b => exact ih b h1.2 h2.2 h3.2
    unfold boxesMain wholeProgram processCommandline
    rw [if_neg (show (commandLineOf argv).first ≠ some (lit "-?") from hq), he, hloop good _ hg hh hv]
    rfl

/-! ### Examples -/

example : Reading [lit "-lm", lit "in", lit "--tag=a,b", lit "-dshell", lit "-", lit "-p", lit "-x", lit "--", lit "-r"]
    [.list, .mend, .query (lit "a,b"), .design (lit "shell"), .padding (lit "-x")] [lit "in", lit "-", lit "-r"] :=
  (C75_reading _ _ _).2 (by decide +kernel)

example : Calls (word "tag") "tag-query" ∧ ¬ Calls (word "co") "color" ∧ ¬ Calls (word "no") "no-color" := by
  unfold Calls
  decide +kernel

example (m : Machine) (fuel : Nat) : boxesMain m [lit "--design", lit "shell", lit "in"] fuel = boxesMain m [lit "in", lit "-dshell"] fuel :=
  C75_same (os := [.design (lit "shell")]) (fs := [lit "in"]) ((C75_reading _ _ _).2 (by decide +kernel)) ((C75_reading _ _ _).2 (by decide +kernel)) m fuel

example (m : Machine) (fuel : Nat) : ∃ good rest, (commandLineOf [lit "-l", lit "--co", lit "-h"]).options = good ++ .bad :: rest ∧
    boxesMain m [lit "-l", lit "--co", lit "-h"] fuel = some (.fail 1) := by
  refine ⟨[.list], [.help], by decide +kernel, ?_⟩
  obtain ⟨good, rest, h1, h2, h3⟩ := (C75_refused [lit "-l", lit "--co", lit "-h"] m fuel).2 (by
    intro os fs h
    obtain ⟨rfl, -, h⟩ := (C75_reading _ _ _).1 h
    exact h (by decide +kernel))
  have he : (commandLineOf [lit "-l", lit "--co", lit "-h"]).options = [.list, .bad, .help] := by decide +kernel
  rw [he] at h1
  have hg : good = [.list] := by
    cases good with
    | nil => simp at h1
    | cons x good =>
      simp only [List.cons_append, List.cons.injEq] at h1
      cases good with
      | nil => rw [← h1.1]
      | cons y good =>
        simp only [List.cons_append, List.cons.injEq] at h1
        exact absurd (by simp [← h1.2.1]) h2
  subst hg
  exact h3 (by decide +kernel) (by decide) (by decide)

end Boxes
