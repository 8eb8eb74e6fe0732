import Verif.Lemmas.Detect
import Verif.Lemmas.BxsOps
import Verif.Spec.Sample

/-!
# Properties of the detection of a design: C26, C27
-/
namespace Boxes
open Spec ShapeName
set_option linter.unusedSimpArgs false

/-- C27: which comparison types are tried depends on colour only, in this way. -/
theorem C27_viable (c : CompType) (monoInput monoDesign : Bool) :
    compTypeIsViable c monoInput monoDesign = applicable c (!monoInput) (!monoDesign) := by
  cases c <;> cases monoInput <;> cases monoDesign <;> rfl

/-- C27: for every colouring exactly one comparison type applies that is not the literal one, or the literal one applies; if both are
coloured, the one that ignores all escape sequences applies in addition. -/
theorem C27_exactly (i d : Bool) : compTypes.filter (fun c => applicable c i d) =
    match i, d with
    | false, false => [.literal]
    | true, false => [.ignoreInput]
    | false, true => [.ignoreShape]
    | true, true => [.literal, .ignoreAll] := by
  cases i <;> cases d <;> rfl

/-- C27: colour of the input, as the code finds it. -/
theorem C27_input (lines : List Line) (m : Bool) (h : inputIsMono lines = .ok m) : m = !inputColoured lines := by
  induction lines with
  | nil =>
    simp only [inputIsMono, Res.ok.injEq] at h
    subst h; rfl
  | cons l r ih =>
    simp only [inputIsMono, Res.bind_eq_ok] at h
    obtain ⟨t, ht, h⟩ := h
    cases hl : l.text with
    | none => rw [hl] at ht; simp at ht
    | some t' =>
      rw [hl] at ht
      simp only [Res.get_some, Res.ok.injEq] at ht
      subst ht
      simp only [inputColoured, List.any_cons, hl]
      split at h
      · rename_i hi
        simp only [Res.ok.injEq] at h
        subst h
        simp [hi]
      · rename_i hi
        rw [ih h]
        simp [inputColoured, hi]

/-- C27: colour of a design, as the code finds it. -/
theorem C27_design (d : Design) (m : Bool) (h : designIsMono d = .ok m) : m = !designColoured d := by
  have hs := shapesAreMono_spec h
  cases hc : designColoured d with
  | true =>
    simp only [designColoured, List.any_eq_true, Bool.and_eq_true, Bool.not_eq_true', decide_eq_true_eq] at hc
    obtain ⟨n, hn, h1, t, h2, h3⟩ := hc
    cases m with
    | false => rfl
    | true =>
      obtain ⟨k, hk⟩ := List.getElem?_of_mem h2
      rw [List.getElem?_take] at hk
      split at hk
      · rename_i hlt
        obtain ⟨t', e1, e2⟩ := hs.1 rfl n hn h1 k hlt
        rw [hk] at e1
        obtain rfl := Option.some.inj e1
        omega
      · simp at hk
  | false =>
    simp only [designColoured, List.any_eq_false, Bool.and_eq_true, Bool.not_eq_true', not_and, decide_eq_true_eq,
      List.any_eq_true, not_exists] at hc
    simp only [Bool.not_false]
    cases m with
    | true => rfl
    | false =>
      exfalso
      have key : ∀ l : List ShapeName, shapesAreMono d l = .ok false → ∃ n ∈ l, (d.shape n).isEmpty = false ∧
          shapeIsMono (d.shape n).lines (d.shape n).height 0 = .ok false := by
        intro l
        induction l with
        | nil => intro h; simp [shapesAreMono] at h
        | cons n r ih =>
          intro h
          unfold shapesAreMono at h
          split at h
          · obtain ⟨n', a, b⟩ := ih h
            exact ⟨n', by simp [a], b⟩
          · rename_i he
            simp only [Res.bind_eq_ok] at h
            obtain ⟨m', h1, h⟩ := h
            split at h
            · obtain ⟨n', a, b⟩ := ih h
              exact ⟨n', by simp [a], b⟩
            · rename_i hm
              refine ⟨n, by simp, by simpa using he, ?_⟩
              cases m' with
              | true => simp at hm
              | false => exact h1
      have key2 : ∀ (ls : List Bxs) (n i : Nat), shapeIsMono ls n i = .ok false →
          ∃ k t, k < i + n ∧ ls[k]? = some t ∧ 0 < t.invis := by
        intro ls n
        induction n with
        | zero => intro i h; simp [shapeIsMono] at h
        | succ n ih =>
          intro i h
          simp only [shapeIsMono, Res.bind_eq_ok] at h
          obtain ⟨t, ht, h⟩ := h
          split at h
          · rename_i hi
            refine ⟨i, t, by omega, ?_, hi⟩
            cases hl : ls[i]? with
            | none => rw [hl] at ht; simp at ht
            | some x => rw [hl] at ht; simpa using ht
          · obtain ⟨k, t, a, b⟩ := ih (i + 1) h
            exact ⟨k, t, by omega, b⟩
      obtain ⟨n, hn, he, hsn⟩ := key _ h
      obtain ⟨k, t, hk, ht, hi⟩ := key2 _ _ _ hsn
      refine hc n hn he t ?_ hi
      apply List.mem_of_getElem? (i := k)
      rw [List.getElem?_take, if_pos (by omega)]
      exact ht

/-- C27: a text counts as coloured exactly if it contains an escape sequence. -/
theorem C27_colour (db : CharDb) (s v : Str) (b : Bxs) (hs : Text s v) (hb : fromUnicode db s = some b) :
    0 < b.invis ↔ s ≠ v := by
  obtain ⟨ts, h1, h2, h3, _, rfl⟩ := fromUnicode_text_some db hs hb
  subst h2 h3
  have hle := vis_le_len db ts
  show 0 < (flat ts).length - (visOf ts).length ↔ _
  constructor
  · intro hlt he
    rw [he] at hlt
    omega
  · intro hne
    rcases Nat.lt_or_eq_of_le hle with hlt | he
    · omega
    · exact absurd (flat_eq_vis_of_len h1 he.symm) hne


/-- C26: the comparison types are tried in order, until there is a candidate with more than two hits; the design found is the first
of the best candidates. -/
theorem C26_first_best (db : CharDb) (ds : List Design) (lines : List Line) (hu : ∀ d ∈ ds, Unasked d) (m : Option Nat)
    (ds' : List Design) (h : autodetectDesign db ds lines = .ok (m, ds')) :
    ∃ (hits : CompType → Design → Nat) (r : Nat), r ≤ compTypes.length ∧
      let via := fun c d => applicable c (inputColoured lines) (designColoured d)
      let tried := fun n => (compTypes.take n).flatMap (fun c => candidates (hits c) (via c) ds)
      (∀ c ∈ compTypes.take r, ∀ d ∈ ds, via c d = true → ∃ d', matchDesign db d lines c = .ok (hits c d, d')) ∧
      (r < compTypes.length → ∃ p ∈ tried r, 2 < p.2) ∧
      (∀ n, n < r → ∀ p ∈ tried n, p.2 ≤ 2) ∧
      FirstBest (tried r) m := by
  unfold autodetectDesign at h
  simp only [Res.bind_eq_ok, Res.ok.injEq, Prod.mk.injEq] at h
  obtain ⟨mono, hm, q, hq, rfl, rfl⟩ := h
  let hits : CompType → Design → Nat := fun c d => match matchDesign db d lines c with
    | .ok p => p.1
    | _ => 0
  have hmono := C27_input lines mono hm
  have hs := detectRounds_spec (R := fun d0 d => Unasked d0 ∧ Coherent db d0 d) (hits := hits)
    (via := fun c d => applicable c (inputColoured lines) (designColoured d))
    (P := fun c d => ∃ d', matchDesign db d lines c = .ok (hits c d, d'))
    (score := fun c d => matchDesign db d lines c)
    (viable := fun c d => do .ok (compTypeIsViable c mono (← designIsMono d)))
    (by
      intro c d0 d n d' hR _ hsc
      obtain ⟨a, e', b⟩ := matchDesign_congr hR.1 hR.2 lines c hsc
      have : hits c d0 = n := by simp only [hits, b]
      exact ⟨⟨hR.1, a⟩, this.symm, e', by rw [this]; exact b⟩)
    (by
      intro c d0 d v hR hv
      simp only [Res.bind_eq_ok, Res.ok.injEq] at hv
      obtain ⟨x, hx, rfl⟩ := hv
      rw [designIsMono_congr (hR.2.toSame (coherent_refl db hR.1))] at hx
      rw [C27_viable, hmono, C27_design d0 x hx]
      simp)
    compTypes [] ds ds (none, 0) q (Rel.refl (fun d hd => ⟨hu d hd, coherent_refl db (hu d hd)⟩))
    (by simp [BestOf, allCandidates]) hq
  obtain ⟨r, h1, h2, h3, h4, h5, h6⟩ := hs
  refine ⟨hits, r, h1, h6, ?_, ?_, ?_⟩
  · intro hlt
    obtain ⟨_, hgt⟩ := h3 hlt
    rcases h2.attained with hz | ⟨p, hp, he⟩
    · omega
    · exact ⟨p, by simpa [allCandidates] using hp, by omega⟩
  · intro n hn p hp
    cases n with
    | zero => simp at hp
    | succ n => exact h4 (n + 1) (by omega) hn p (by simpa [allCandidates] using hp)
  · have := h2.first
    simpa [allCandidates] using this

/-! ## examples -/

/-- the text of a drawn box is recognised; all three designs are candidates, none was asked before -/
example : ((autodetectDesign sampleDb [rulesDesign, starDesign, sampleDesign, starDesign]
    (mkInput ["..-=<>=-.", "O|      )", "|| ab   (", "||cd    )", "`'######'"]).lines).bind (fun p => .ok p.1)) = .ok (some 2) := by
  decide +kernel

example : ((autodetectDesign sampleDb [rulesDesign, sampleDesign, starDesign, starDesign]
    (mkInput ["****", "*a *", "****"]).lines).bind (fun p => .ok p.1)) = .ok (some 2) := by decide +kernel

/-- a coloured input is compared without its escape sequences -/
example : ((autodetectDesign sampleDb [sampleDesign, starDesign]
    [{ text := fromUnicode sampleDb (lit "\x1b[31m****\x1b[0m") }, { text := fromUnicode sampleDb (lit "*ab*") }, { text := fromUnicode sampleDb (lit "****") }]).bind
      (fun p => .ok p.1)) = .ok (some 1) := by decide +kernel

example : inputColoured [{ text := fromUnicode sampleDb (lit "\x1b[31m****\x1b[0m") }] = true ∧ designColoured sampleDesign = false := by
  decide +kernel

/-- no design -/
example : ((autodetectDesign sampleDb [sampleDesign, starDesign] (mkInput ["abc", "def"]).lines).bind (fun p => .ok p.1)) = .ok none := by
  decide +kernel

end Boxes
