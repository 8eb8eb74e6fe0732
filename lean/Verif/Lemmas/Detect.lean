import Verif.Model.Detect
import Verif.Spec.Detect
import Verif.Lemmas.Cache

/-!
Helper lemmas: choice of a design.
-/
namespace Boxes
open Spec ShapeName
set_option linter.unusedSimpArgs false

/-- What is known of the best candidate so far -/
def BestOf (l : List (Nat × Nat)) (b : Option Nat × Nat) : Prop :=
  match b.1 with
  | none => b.2 = 0 ∧ ∀ p ∈ l, p.2 = 0
  | some k => ∃ i : Nat, l[i]? = some (k, b.2) ∧ 0 < b.2 ∧ (∀ p ∈ l, p.2 ≤ b.2) ∧ ∀ (j : Nat) p, j < i → l[j]? = some p → p.2 < b.2

theorem BestOf.first {l : List (Nat × Nat)} {b : Option Nat × Nat} (h : BestOf l b) : FirstBest l b.1 := by
  unfold BestOf at h
  unfold FirstBest
  split at h
  · rename_i hn
    rw [hn]; exact h.2
  · rename_i k hn
    rw [hn]
    obtain ⟨i, h1, h2, h3, h4⟩ := h
    exact ⟨i, b.2, h1, h2, h3, h4⟩

theorem BestOf.le {l : List (Nat × Nat)} {b : Option Nat × Nat} (h : BestOf l b) : ∀ p ∈ l, p.2 ≤ b.2 := by
  unfold BestOf at h
  split at h
  · intro p hp
    rw [h.2 p hp]; omega
  · obtain ⟨_, _, _, h3, _⟩ := h
    exact h3

theorem BestOf.attained {l : List (Nat × Nat)} {b : Option Nat × Nat} (h : BestOf l b) : b.2 = 0 ∨ ∃ p ∈ l, p.2 = b.2 := by
  unfold BestOf at h
  split at h
  · exact .inl h.1
  · obtain ⟨i, h1, _⟩ := h
    exact .inr ⟨_, List.mem_of_getElem? h1, rfl⟩

theorem BestOf.step {l : List (Nat × Nat)} {b : Option Nat × Nat} (h : BestOf l b) (i n : Nat) :
    BestOf (l ++ [(i, n)]) (if n > b.2 then (some i, n) else b) := by
  split
  · rename_i hgt
    refine ⟨l.length, by simp, by simp only; omega, ?_, ?_⟩
    · intro p hp
      simp only [List.mem_append, List.mem_singleton] at hp
      rcases hp with hp | rfl
      · have := h.le p hp
        simp only; omega
      · simp
    · intro j p hj hp
      rw [List.getElem?_append_left hj] at hp
      have := h.le p (List.mem_of_getElem? hp)
      simp only; omega
  · rename_i hgt
    unfold BestOf at h ⊢
    split at h
    · refine ⟨h.1, ?_⟩
      intro p hp
      simp only [List.mem_append, List.mem_singleton] at hp
      rcases hp with hp | rfl
      · exact h.2 p hp
      · simp only; omega
    · obtain ⟨x, h1, h2, h3, h4⟩ := h
      have hx := (List.getElem?_eq_some_iff.1 h1).1
      refine ⟨x, by rw [List.getElem?_append_left hx]; exact h1, h2, ?_, ?_⟩
      · intro p hp
        simp only [List.mem_append, List.mem_singleton] at hp
        rcases hp with hp | rfl
        · exact h3 p hp
        · simp only; omega
      · intro j p hj hp
        rw [List.getElem?_append_left (by omega)] at hp
        exact h4 j p hj hp

/-- `Rel R ds es`: the lists correspond item by item -/
inductive Rel {D : Type} (R : D → D → Prop) : List D → List D → Prop
  | nil : Rel R [] []
  | cons {d e ds es} : R d e → Rel R ds es → Rel R (d :: ds) (e :: es)

theorem Rel.refl {D : Type} {R : D → D → Prop} {ds : List D} (h : ∀ d ∈ ds, R d d) : Rel R ds ds := by
  induction ds with
  | nil => exact .nil
  | cons d ds ih => exact .cons (h d (by simp)) (ih (fun x hx => h x (by simp [hx])))

theorem detectRound_spec {D : Type} {R : D → D → Prop} {score : D → Res (Nat × D)} {viable : D → Res Bool}
    {hits : D → Nat} {via : D → Bool} {P : D → Prop}
    (hs : ∀ d0 d n d', R d0 d → viable d = .ok true → score d = .ok (n, d') → R d0 d' ∧ n = hits d0 ∧ P d0)
    (hv : ∀ d0 d v, R d0 d → viable d = .ok v → v = via d0) :
    ∀ (ds0 ds : List D) (i : Nat) (b : Option Nat × Nat) (l : List (Nat × Nat)) (q : (Option Nat × Nat) × List D),
      Rel R ds0 ds → BestOf l b → detectRound score viable ds i b = .ok q →
      BestOf (l ++ ((ds0.zipIdx i).filter (fun p => via p.1)).map (fun p => (p.2, hits p.1))) q.1 ∧ Rel R ds0 q.2 ∧
        ∀ d ∈ ds0, via d = true → P d
  | _, _, i, b, l, q, .nil, hb, h => by
    simp only [detectRound, Res.ok.injEq] at h
    subst h
    refine ⟨by simpa using hb, Rel.nil, by simp⟩
  | d0 :: ds0, d :: ds, i, b, l, q, .cons hd hr, hb, h => by
    unfold detectRound at h
    simp only [Res.bind_eq_ok] at h
    obtain ⟨v, hv', h⟩ := h
    have hvia := hv d0 d v hd hv'
    split at h
    · rename_i hvt
      rw [hvt] at hvia hv'
      simp only [Res.bind_eq_ok, Res.ok.injEq] at h
      obtain ⟨x, hx, rest, hrest, rfl⟩ := h
      obtain ⟨e1, e2, e3⟩ := hs d0 d x.1 x.2 hd hv' hx
      have hb' := hb.step i x.1
      obtain ⟨f1, f2, f3⟩ := detectRound_spec hs hv ds0 ds (i + 1) _ _ rest hr hb' hrest
      refine ⟨?_, .cons e1 f2, ?_⟩
      rotate_left
      · intro d hd
        rcases List.mem_cons.1 hd with rfl | hd
        · exact fun _ => e3
        · exact f3 d hd
      rw [List.zipIdx_cons, List.filter_cons, if_pos (by simp [← hvia]), List.map_cons, ← e2]
      simpa using f1
    · rename_i hvt
      have hvf : via d0 = false := by rw [← hvia]; simpa using hvt
      simp only [Res.bind_eq_ok, Res.ok.injEq] at h
      obtain ⟨rest, hrest, rfl⟩ := h
      obtain ⟨f1, f2, f3⟩ := detectRound_spec hs hv ds0 ds (i + 1) b l rest hr hb hrest
      refine ⟨?_, .cons hd f2, ?_⟩
      rotate_left
      · intro d hd
        rcases List.mem_cons.1 hd with rfl | hd
        · intro hx; rw [hvf] at hx; simp at hx
        · exact f3 d hd
      rw [List.zipIdx_cons, List.filter_cons, if_neg (by simp [hvf])]
      exact f1

/-- all candidates of the given comparison types, in order -/
def allCandidates {D : Type} (hits : CompType → D → Nat) (via : CompType → D → Bool) (cs : List CompType) (ds : List D) :
    List (Nat × Nat) :=
  cs.flatMap (fun c => candidates (hits c) (via c) ds)

theorem detectRounds_spec {D : Type} {R : D → D → Prop} {score : CompType → D → Res (Nat × D)} {viable : CompType → D → Res Bool}
    {hits : CompType → D → Nat} {via : CompType → D → Bool} {P : CompType → D → Prop}
    (hs : ∀ c d0 d n d', R d0 d → viable c d = .ok true → score c d = .ok (n, d') → R d0 d' ∧ n = hits c d0 ∧ P c d0)
    (hv : ∀ c d0 d v, R d0 d → viable c d = .ok v → v = via c d0) :
    ∀ (cs done : List CompType) (ds0 ds : List D) (b : Option Nat × Nat) (q : (Option Nat × Nat) × List D),
      Rel R ds0 ds → BestOf (allCandidates hits via done ds0) b → detectRounds score viable cs ds b = .ok q →
      ∃ r, r ≤ cs.length ∧ BestOf (allCandidates hits via (done ++ cs.take r) ds0) q.1 ∧
        (r < cs.length → 0 < r ∧ 2 < q.1.2) ∧
        (∀ r', 0 < r' → r' < r → ∀ p ∈ allCandidates hits via (done ++ cs.take r') ds0, p.2 ≤ 2) ∧ Rel R ds0 q.2 ∧
        ∀ c ∈ cs.take r, ∀ d ∈ ds0, via c d = true → P c d
  | [], done, ds0, ds, b, q, hr, hb, h => by
    simp only [detectRounds, Res.ok.injEq] at h
    subst h
    exact ⟨0, by simp, by simpa using hb, by simp, by intro r' h1 h2; omega, hr, by simp⟩
  | c :: cs, done, ds0, ds, b, q, hr, hb, h => by
    unfold detectRounds at h
    simp only [Res.bind_eq_ok] at h
    obtain ⟨x, hx, h⟩ := h
    obtain ⟨e1, e2, e3⟩ := detectRound_spec (hs c) (hv c) ds0 ds 0 b _ x hr hb hx
    have e1' : BestOf (allCandidates hits via (done ++ [c]) ds0) x.1 := by
      simpa [allCandidates, candidates] using e1
    split at h
    · rename_i hgt
      simp only [Res.ok.injEq] at h
      subst h
      refine ⟨1, by simp, by simpa using e1', fun _ => ⟨by omega, hgt⟩, by intro r' h1 h2; omega, e2, by simpa using e3⟩
    · rename_i hgt
      obtain ⟨r, h1, h2, h3, h4, h5, h6⟩ := detectRounds_spec hs hv cs (done ++ [c]) ds0 x.2 x.1 q e2 e1' h
      refine ⟨r + 1, by simp; omega, by simpa using h2, ?_, ?_, h5, ?_⟩
      · intro hlt
        exact ⟨by omega, (h3 (by simpa using hlt)).2⟩
      · intro r' hr1 hr2 p hp
        cases r' with
        | zero => omega
        | succ r' =>
          cases r' with
          | zero =>
            have := e1'.le p (by simpa using hp)
            omega
          | succ r'' =>
            exact h4 (r'' + 1) (by omega) (by omega) p (by simpa using hp)
      · intro c' hc'
        simp only [List.take_succ_cons, List.mem_cons] at hc'
        rcases hc' with rfl | hc'
        · exact e3
        · exact h6 c' hc'

/-- Two designs that differ in their caches only -/
structure Same (d e : Design) : Prop where
  same : ∀ n, (d.shape n).lines = (e.shape n).lines ∧ (d.shape n).height = (e.shape n).height ∧
    (d.shape n).width = (e.shape n).width ∧ (d.shape n).elastic = (e.shape n).elastic

theorem Coherent.toSame {db : CharDb} {d0 d e : Design} (h : Coherent db d0 d) (h' : Coherent db d0 e) : Same d e := by
  constructor
  intro n
  have a := h.same n
  have b := h.measures n
  have a' := h'.same n
  have b' := h'.measures n
  simp [a, b, a', b']

section
variable {db : CharDb} {d e : Design} (h : Same d e)
include h

theorem isEmpty_congr (n : ShapeName) : (d.shape n).isEmpty = (e.shape n).isEmpty := by
  obtain ⟨h1, h2, h3, _⟩ := h.same n
  simp only [Shape.isEmpty, h1, h2, h3]

theorem isDeepEmpty_congr (n : ShapeName) : (d.shape n).isDeepEmpty = (e.shape n).isDeepEmpty := by
  obtain ⟨h1, h2, h3, _⟩ := h.same n
  simp only [Shape.isDeepEmpty, isEmpty_congr h, h1, h2, h3]

theorem emptySides_congr : determineEmptySides d = determineEmptySides e := by
  simp only [determineEmptySides, emptySide, isDeepEmpty_congr h]

theorem designIsMono_congr : designIsMono d = designIsMono e := by
  have : ∀ l, shapesAreMono d l = shapesAreMono e l := by
    intro l
    induction l with
    | nil => rfl
    | cons n r ih =>
      obtain ⟨h1, h2, _, _⟩ := h.same n
      simp only [shapesAreMono, isEmpty_congr h, h1, h2, ih]
  exact this _

theorem prepareCompShape_congr (n : ShapeName) (idx : Nat) (c : CompType) (l r : Bool) :
    prepareCompShape d n idx c l r = prepareCompShape e n idx c l r := by
  obtain ⟨h1, h2, _, _⟩ := h.same n
  simp only [prepareCompShape, h1, h2]

theorem westCornerLoop_congr (lines : List Line) (c : CompType) (x : ShapeName) :
    ∀ n j, westCornerLoop db d lines c x n j = westCornerLoop db e lines c x n j
  | 0, _ => rfl
  | n + 1, j => by
    obtain ⟨h1, h2, _, _⟩ := h.same x
    simp only [westCornerLoop, h1, h2, prepareCompShape_congr h, westCornerLoop_congr lines c x n]

theorem eastCornerLoop_congr (lines : List Line) (c : CompType) (x : ShapeName) :
    ∀ n j, eastCornerLoop db d lines c x n j = eastCornerLoop db e lines c x n j
  | 0, _ => rfl
  | n + 1, j => by
    obtain ⟨h1, h2, _, _⟩ := h.same x
    simp only [eastCornerLoop, h1, h2, prepareCompShape_congr h, eastCornerLoop_congr lines c x n]

theorem westLineHit_congr (c : CompType) (x : ShapeName) (s : Str) :
    ∀ n j, westLineHit db d c x s n j = westLineHit db e c x s n j
  | 0, _ => rfl
  | n + 1, j => by
    obtain ⟨h1, h2, _, _⟩ := h.same x
    simp only [westLineHit, h1, h2, prepareCompShape_congr h, westLineHit_congr c x s n]

theorem westLoop_congr (lines : List Line) (c : CompType) (x : ShapeName) :
    ∀ n k, westLoop db d lines c x n k = westLoop db e lines c x n k
  | 0, _ => rfl
  | n + 1, k => by
    obtain ⟨h1, h2, _, _⟩ := h.same x
    simp only [westLoop, h2, westLineHit_congr h, westLoop_congr lines c x n]

theorem eastLoop_congr (lines : List Line) (c : CompType) (x : ShapeName) (a b : Nat) :
    ∀ n j, eastLoop db d lines c x a b n j = eastLoop db e lines c x a b n j
  | 0, _ => rfl
  | n + 1, j => by
    obtain ⟨h1, h2, _, _⟩ := h.same x
    simp only [eastLoop, h1, h2, prepareCompShape_congr h, eastLoop_congr lines c x a b n]

theorem outerLines_congr (s : Sides Bool) : outerLines d s = outerLines e s := by
  simp only [outerLines, (h.same NW).2.1, (h.same SW).2.1]

theorem findWestCorner_congr (lines : List Line) (c : CompType) (s : Sides Bool) (x : ShapeName) :
    findWestCorner db d lines c s x = findWestCorner db e lines c s x := by
  simp only [findWestCorner, (h.same x).2.1, westCornerLoop_congr h]

theorem findEastCorner_congr (lines : List Line) (c : CompType) (s : Sides Bool) (x : ShapeName) :
    findEastCorner db d lines c s x = findEastCorner db e lines c s x := by
  simp only [findEastCorner, (h.same x).2.1, eastCornerLoop_congr h]

theorem findVerticalWest_congr (lines : List Line) (c : CompType) (s : Sides Bool) (x : ShapeName) :
    findVerticalWest db d lines c s x = findVerticalWest db e lines c s x := by
  simp only [findVerticalWest, isEmpty_congr h, outerLines_congr h, westLoop_congr h]

theorem findVerticalEast_congr (lines : List Line) (c : CompType) (s : Sides Bool) (x : ShapeName) :
    findVerticalEast db d lines c s x = findVerticalEast db e lines c s x := by
  simp only [findVerticalEast, isEmpty_congr h, outerLines_congr h, (h.same x).2.1, eastLoop_congr h]
end

theorem ask_both {db : CharDb} {d0 d e : Design} (hu : Unasked d0) (hd : Coherent db d0 d) (he : Coherent db d0 e)
    {n : ShapeName} {i : Nat} {l : Bool} {q : Bool × Design} (h : isBlankward db d n i l = .ok q) :
    Coherent db d0 q.2 ∧ ∃ e', isBlankward db e n i l = .ok (q.1, e') ∧ Coherent db d0 e' := by
  rcases ask_ok db hu hd ⟨n, i, l⟩ with ⟨a, d', h1, h2, h3⟩ | ⟨h1, _⟩ | ⟨m, h1, _⟩
  · simp only at h1
    rw [h] at h1
    obtain rfl := Res.ok.inj h1
    refine ⟨h2, ?_⟩
    rcases ask_ok db hu he ⟨n, i, l⟩ with ⟨a', e', g1, g2, g3⟩ | ⟨_, g2⟩ | ⟨m, _, g2⟩
    · rw [h3] at g3
      obtain rfl := Res.ok.inj g3
      exact ⟨e', g1, g2⟩
    · rw [h3] at g2; simp at g2
    · rw [h3] at g2; simp at g2
  · simp only at h1; rw [h] at h1; simp at h1
  · simp only at h1; rw [h] at h1; simp at h1

theorem horizLoop_congr {db : CharDb} {d0 : Design} (hu : Unasked d0) (lines : List Line) (c : CompType) (x : ShapeName) :
    ∀ (n j : Nat) (d e : Design), Coherent db d0 d → Coherent db d0 e → ∀ q, horizLoop db lines c x n j d = .ok q →
      Coherent db d0 q.2 ∧ ∃ e', horizLoop db lines c x n j e = .ok (q.1, e') ∧ Coherent db d0 e'
  | 0, j, d, e, hd, he, q, h => by
    simp only [horizLoop, Res.ok.injEq] at h
    subst h
    exact ⟨hd, e, rfl, he⟩
  | n + 1, j, d, e, hd, he, q, h => by
    have hs := hd.toSame he
    unfold horizLoop at h ⊢
    rw [← (hs.same x).1]
    simp only [Res.bind_eq_ok] at h ⊢
    obtain ⟨b, hb, h⟩ := h
    by_cases hbl : b.isBlankStr db = true
    · rw [if_pos hbl] at h
      obtain ⟨g1, e', g2, g3⟩ := horizLoop_congr hu lines c x n (j + 1) d e hd he q h
      exact ⟨g1, e', ⟨b, hb, by rw [if_pos hbl]; exact g2⟩, g3⟩
    · rw [if_neg hbl] at h
      simp only [Res.bind_eq_ok] at h
      obtain ⟨q1, h1, q2, h2, s, h3, hits, h4, more, h5, h6⟩ := h
      obtain ⟨c1, e1, f1, k1⟩ := ask_both hu hd he h1
      obtain ⟨c2, e2, f2, k2⟩ := ask_both hu c1 k1 h2
      obtain ⟨c3, e3, f3, k3⟩ := horizLoop_congr hu lines c x n (j + 1) q2.2 e2 c2 k2 more h5
      simp only [Res.ok.injEq] at h6
      subst h6
      refine ⟨c3, e3, ⟨b, hb, ?_⟩, k3⟩
      rw [if_neg hbl]
      simp only [Res.bind_eq_ok]
      refine ⟨_, f1, _, f2, s, ?_, hits, ?_, _, f3, rfl⟩
      · rw [← prepareCompShape_congr (c2.toSame k2)]; exact h3
      · rw [← (hs.same x).2.2.2, ← (hs.same x).2.1]; exact h4

theorem matchShape_congr {db : CharDb} {d0 d e : Design} (hu : Unasked d0) (hd : Coherent db d0 d) (he : Coherent db d0 e)
    (lines : List Line) (c : CompType) (s : Sides Bool) (x : ShapeName) {q : Nat × Design}
    (h : matchShape db d lines c s x = .ok q) :
    Coherent db d0 q.2 ∧ ∃ e', matchShape db e lines c s x = .ok (q.1, e') ∧ Coherent db d0 e' := by
  have hs := hd.toSame he
  have hh : ∀ n, findHorizontalShape db d lines c s n = .ok q →
      Coherent db d0 q.2 ∧ ∃ e', findHorizontalShape db e lines c s n = .ok (q.1, e') ∧ Coherent db d0 e' := by
    intro n h
    unfold findHorizontalShape at h ⊢
    by_cases hc : s.top = true ∨ s.bottom = true
    · rw [if_pos hc] at h ⊢
      obtain rfl := Res.ok.inj h
      exact ⟨hd, e, rfl, he⟩
    · rw [if_neg hc] at h ⊢
      rw [← (hs.same n).2.1]
      exact horizLoop_congr hu lines c n _ _ d e hd he q h
  have h1 : ∀ (r : Res Nat), (do .ok (← r, d) : Res (Nat × Design)) = .ok q →
      Coherent db d0 q.2 ∧ ∃ e', (do .ok (← r, e) : Res (Nat × Design)) = .ok (q.1, e') ∧ Coherent db d0 e' := by
    intro r hr
    simp only [Res.bind_eq_ok, Res.ok.injEq] at hr
    obtain ⟨a, ha, rfl⟩ := hr
    exact ⟨hd, e, by rw [ha]; rfl, he⟩
  unfold matchShape at h ⊢
  cases x <;> simp only [findWestCorner_congr hs, findEastCorner_congr hs, findVerticalWest_congr hs, findVerticalEast_congr hs] at h ⊢ <;>
    first | exact hh _ h | exact h1 _ h

theorem matchShapes_congr {db : CharDb} {d0 : Design} (hu : Unasked d0) (lines : List Line) (c : CompType) (s : Sides Bool) :
    ∀ (l : List ShapeName) (d e : Design), Coherent db d0 d → Coherent db d0 e → ∀ q, matchShapes db lines c s l d = .ok q →
      Coherent db d0 q.2 ∧ ∃ e', matchShapes db lines c s l e = .ok (q.1, e') ∧ Coherent db d0 e'
  | [], d, e, hd, he, q, h => by
    simp only [matchShapes, Res.ok.injEq] at h
    subst h
    exact ⟨hd, e, rfl, he⟩
  | x :: l, d, e, hd, he, q, h => by
    simp only [matchShapes, Res.bind_eq_ok, Res.ok.injEq] at h
    obtain ⟨q1, h1, q2, h2, rfl⟩ := h
    obtain ⟨c1, e1, f1, k1⟩ := matchShape_congr hu hd he lines c s x h1
    obtain ⟨c2, e2, f2, k2⟩ := matchShapes_congr hu lines c s l q1.2 e1 c1 k1 q2 h2
    exact ⟨c2, e2, by simp only [matchShapes, f1, Res.ok_bind, f2], k2⟩

theorem matchDesign_congr {db : CharDb} {d0 d : Design} (hu : Unasked d0) (hd : Coherent db d0 d) (lines : List Line) (c : CompType)
    {q : Nat × Design} (h : matchDesign db d lines c = .ok q) :
    Coherent db d0 q.2 ∧ ∃ e', matchDesign db d0 lines c = .ok (q.1, e') := by
  have he := coherent_refl db hu
  unfold matchDesign at h ⊢
  rw [emptySides_congr (hd.toSame he)] at h
  obtain ⟨a, e', b, _⟩ := matchShapes_congr hu lines c _ _ d d0 hd he q h
  exact ⟨a, e', b⟩

theorem inputIsMono_spec : ∀ {lines : List Line} {m : Bool}, inputIsMono lines = .ok m →
    (m = true ↔ ∀ l ∈ lines, ∃ t, l.text = some t ∧ t.invis = 0)
  | [], m, h => by
    simp only [inputIsMono, Res.ok.injEq] at h
    subst h
    simp
  | l :: r, m, h => by
    simp only [inputIsMono, Res.bind_eq_ok] at h
    obtain ⟨t, ht, h⟩ := h
    have ht' : l.text = some t := by
      cases hl : l.text with
      | none => rw [hl] at ht; simp at ht
      | some x => rw [hl] at ht; simpa using ht
    split at h
    · rename_i hi
      simp only [Res.ok.injEq] at h
      subst h
      simp only [Bool.false_eq_true, List.mem_cons, forall_eq_or_imp, false_iff, not_and]
      intro ⟨t', e1, e2⟩
      rw [ht'] at e1
      obtain rfl := Option.some.inj e1
      omega
    · rename_i hi
      rw [inputIsMono_spec h]
      simp only [List.mem_cons, forall_eq_or_imp]
      refine ⟨fun x => ⟨⟨t, ht', by omega⟩, x⟩, fun x => x.2⟩

theorem shapeIsMono_spec {lines : List Bxs} : ∀ {n i : Nat} {m : Bool}, shapeIsMono lines n i = .ok m →
    (m = true ↔ ∀ k, i ≤ k → k < i + n → ∃ t, lines[k]? = some t ∧ t.invis = 0)
  | 0, i, m, h => by
    simp only [shapeIsMono, Res.ok.injEq] at h
    subst h
    simp only [true_iff]
    intro k h1 h2
    omega
  | n + 1, i, m, h => by
    simp only [shapeIsMono, Res.bind_eq_ok] at h
    obtain ⟨t, ht, h⟩ := h
    have ht' : lines[i]? = some t := by
      cases hl : lines[i]? with
      | none => rw [hl] at ht; simp at ht
      | some x => rw [hl] at ht; simpa using ht
    split at h
    · rename_i hi
      simp only [Res.ok.injEq] at h
      subst h
      simp only [Bool.false_eq_true, false_iff]
      intro hx
      obtain ⟨t', e1, e2⟩ := hx i (by omega) (by omega)
      rw [ht'] at e1
      obtain rfl := Option.some.inj e1
      omega
    · rename_i hi
      rw [shapeIsMono_spec h]
      constructor
      · intro hx k h1 h2
        by_cases hk : k = i
        · subst hk; exact ⟨t, ht', by omega⟩
        · exact hx k (by omega) (by omega)
      · intro hx k h1 h2
        exact hx k (by omega) (by omega)

theorem shapesAreMono_spec {d : Design} : ∀ {l : List ShapeName} {m : Bool}, shapesAreMono d l = .ok m →
    (m = true ↔ ∀ n ∈ l, (d.shape n).isEmpty = false → ∀ k < (d.shape n).height, ∃ t, (d.shape n).lines[k]? = some t ∧ t.invis = 0)
  | [], m, h => by
    simp only [shapesAreMono, Res.ok.injEq] at h
    subst h
    simp
  | n :: r, m, h => by
    simp only [List.mem_cons, forall_eq_or_imp]
    unfold shapesAreMono at h
    split at h
    · rename_i he
      rw [shapesAreMono_spec h]
      simp [he]
    · rename_i he
      simp only [Res.bind_eq_ok] at h
      obtain ⟨m', h1, h⟩ := h
      have := shapeIsMono_spec h1
      split at h
      · rename_i hm
        rw [hm] at this
        rw [shapesAreMono_spec h]
        constructor
        · intro hx
          exact ⟨fun _ k hk => this.1 rfl k (by omega) (by omega), hx⟩
        · exact fun hx => hx.2
      · rename_i hm
        simp only [Res.ok.injEq] at h
        subst h
        simp only [Bool.false_eq_true, false_iff, not_and]
        intro hx
        exfalso
        apply hm
        rw [this]
        intro k _ hk
        exact hx (by simpa using he) k (by omega)

end Boxes
