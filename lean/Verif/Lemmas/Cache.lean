import Verif.Lemmas.Output

/-!
Helper lemmas: the blankward caches always hold what a fresh calculation gives.
-/
namespace Boxes
open Spec ShapeName
set_option linter.unusedSimpArgs false

/-- A question to `is_blankward`: shape, line of the shape, left or right. -/
structure Question where
  shape : ShapeName
  line : Nat
  leftward : Bool

/-- asking one question after the other; the answers -/
def askAll (db : CharDb) : Design → List Question → Res (List Bool)
  | _, [] => .ok []
  | d, q :: qs => do
    let (a, d') ← isBlankward db d q.shape q.line q.leftward
    let as ← askAll db d' qs
    .ok (a :: as)

/-- the first answer: that of a design that has not been asked anything before -/
def askFresh (db : CharDb) (d : Design) (q : Question) : Res Bool := (isBlankward db d q.shape q.line q.leftward).bind (fun p => .ok p.1)

/-- no question was asked before -/
def Unasked (d : Design) : Prop := ∀ n, (d.shape n).blankLeft = none ∧ (d.shape n).blankRight = none

/-- the caches of `d` hold answers for `d0`, which is the same design otherwise -/
structure Coherent (db : CharDb) (d0 d : Design) : Prop where
  same : ∀ n, (d.shape n).name = (d0.shape n).name ∧ (d.shape n).lines = (d0.shape n).lines ∧
    (d.shape n).height = (d0.shape n).height
  measures : ∀ n, (d.shape n).width = (d0.shape n).width ∧ (d.shape n).elastic = (d0.shape n).elastic
  entries : ∀ n left c, (d.shape n).cache left = some c → c.length = (d0.shape n).height ∧
    ∀ i b, c[i]? = some (some b) → isBlankwardCalc db d0 n i left = .ok b

theorem allBlankAt_congr (db : CharDb) {f g : ShapeName → Shape} (h : ∀ n, (f n).lines = (g n).lines) (idx : Nat) :
    ∀ l, allBlankAt db f idx l = allBlankAt db g idx l
  | [] => rfl
  | t :: l => by simp only [allBlankAt, h, allBlankAt_congr db h idx l]

theorem calc_congr (db : CharDb) {d d0 : Design} (h : Coherent db d0 d) (n : ShapeName) (i : Nat) (left : Bool) :
    isBlankwardCalc db d n i left = isBlankwardCalc db d0 n i left := by
  unfold isBlankwardCalc
  simp only [(h.same n).1]
  simp only [allBlankAt_congr db (fun n => (h.same n).2.1)]

theorem cache_setCache (s : Shape) (l l' : Bool) (c : List (Option Bool)) :
    (s.setCache l c).cache l' = if l' = l then some c else s.cache l' := by
  cases l <;> cases l' <;> rfl

theorem coherent_refl (db : CharDb) {d : Design} (h : Unasked d) : Coherent db d d := by
  refine ⟨fun n => ⟨rfl, rfl, rfl⟩, fun n => ⟨rfl, rfl⟩, ?_⟩
  intro n left c hc
  obtain ⟨h1, h2⟩ := h n
  cases left
  · simp [Shape.cache, h2] at hc
  · simp [Shape.cache, h1] at hc

theorem ask_ok (db : CharDb) {d0 d : Design} (hu : Unasked d0) (h : Coherent db d0 d) (q : Question) :
    (∃ a d', isBlankward db d q.shape q.line q.leftward = .ok (a, d') ∧ Coherent db d0 d' ∧ askFresh db d0 q = .ok a) ∨
    (isBlankward db d q.shape q.line q.leftward = .ub ∧ askFresh db d0 q = .ub) ∨
    ∃ n, isBlankward db d q.shape q.line q.leftward = .fail n ∧ askFresh db d0 q = .fail n := by
  obtain ⟨n, i, left⟩ := q
  simp only
  have hfresh : askFresh db d0 ⟨n, i, left⟩ =
      if i ≥ (d0.shape n).height then .ok false else isBlankwardCalc db d0 n i left := by
    unfold askFresh isBlankward
    simp only
    split
    · rfl
    · rename_i hlt
      have hnone : (d0.shape n).cache left = none := by
        obtain ⟨h1, h2⟩ := hu n
        cases left
        · exact h2
        · exact h1
      have hlt' : i < (d0.shape n).height := by omega
      simp only [hnone, Option.bind_none, Option.getD_none, List.length_replicate, hlt', if_true]
      cases isBlankwardCalc db d0 n i left <;> rfl
  rw [hfresh]
  unfold isBlankward
  simp only
  rw [(h.same n).2.2]
  by_cases hge : i ≥ (d0.shape n).height
  · simp only [if_pos hge]
    exact .inl ⟨_, _, rfl, h, rfl⟩
  · simp only [if_neg hge]
    cases hc : ((d.shape n).cache left).bind (fun c => c[i]?.join) with
    | some b =>
      left
      refine ⟨b, d, rfl, h, ?_⟩
      rw [Option.bind_eq_some_iff] at hc
      obtain ⟨c, hc1, hc2⟩ := hc
      rw [Option.join_eq_some_iff] at hc2
      exact (h.entries n left c hc1).2 i b hc2
    | none =>
      simp only [calc_congr db h]
      cases hr : isBlankwardCalc db d0 n i left with
      | ub => exact .inr (.inl ⟨rfl, rfl⟩)
      | fail m => exact .inr (.inr ⟨m, rfl, rfl⟩)
      | ok b =>
        left
        simp only [Res.ok_bind]
        have hlen : (((d.shape n).cache left).getD (List.replicate (d0.shape n).height none)).length = (d0.shape n).height := by
          cases hcc : (d.shape n).cache left with
          | none => simp
          | some c => simpa using (h.entries n left c hcc).1
        rw [if_pos (by omega)]
        refine ⟨b, _, rfl, ⟨?_, ?_, ?_⟩, rfl⟩
        · intro m
          simp only [Design.setShape]
          split
          · rename_i hm
            subst hm
            have := h.same m
            cases left <;> simpa [Shape.setCache] using this
          · exact h.same m
        · intro m
          simp only [Design.setShape]
          split
          · rename_i hm
            subst hm
            have := h.measures m
            cases left <;> simpa [Shape.setCache] using this
          · exact h.measures m
        · intro m l c hcm
          simp only [Design.setShape] at hcm
          split at hcm
          · rename_i hm
            subst hm
            rw [cache_setCache] at hcm
            split at hcm
            · rename_i hl
              subst hl
              simp only [Option.some.injEq] at hcm
              subst hcm
              refine ⟨by simpa using hlen, ?_⟩
              intro k b' hk
              rw [List.getElem?_set] at hk
              split at hk
              · rename_i hik
                subst hik
                split at hk
                · simp only [Option.some.injEq] at hk
                  subst hk
                  exact hr
                · simp at hk
              · cases hcc : (d.shape m).cache l with
                | none =>
                  rw [hcc] at hk
                  simp only [Option.getD_none, List.getElem?_replicate] at hk
                  split at hk <;> simp at hk
                | some c =>
                  rw [hcc] at hk
                  exact (h.entries m l c hcc).2 k b' (by simpa using hk)
            · exact h.entries m l c hcm
          · exact h.entries m l c hcm

theorem askAll_coherent (db : CharDb) {d0 : Design} (hu : Unasked d0) : ∀ (qs : List Question) (d : Design), Coherent db d0 d →
    ∀ (k : Nat) q, qs[k]? = some q → (∀ as, askAll db d qs = .ok as → ∃ a, as[k]? = some a ∧ askFresh db d0 q = .ok a) ∧
      (askAll db d qs = .ub → ∃ q ∈ qs, askFresh db d0 q = .ub)
  | [], _, _, k, q, h => by simp at h
  | p :: ps, d, hd, k, q, hk => by
    rcases ask_ok db hu hd p with ⟨a, d', h1, h2, h3⟩ | ⟨h1, h2⟩ | ⟨n, h1, h2⟩
    · constructor
      · intro as has
        simp only [askAll, h1, Res.ok_bind, Res.bind_eq_ok, Res.ok.injEq] at has
        obtain ⟨rest, hrest, rfl⟩ := has
        cases k with
        | zero =>
          simp only [List.getElem?_cons_zero, Option.some.injEq] at hk
          subst hk
          exact ⟨a, rfl, h3⟩
        | succ k =>
          simp only [List.getElem?_cons_succ] at hk ⊢
          exact (askAll_coherent db hu ps d' h2 k q hk).1 rest hrest
      · intro hub
        simp only [askAll, h1, Res.ok_bind] at hub
        cases hps : ps with
        | nil => subst hps; simp [askAll] at hub
        | cons q' qs' =>
          cases hr : askAll db d' ps with
          | ok as => rw [hr] at hub; simp at hub
          | fail n => rw [hr] at hub; simp at hub
          | ub =>
            obtain ⟨x, hx, hx2⟩ := (askAll_coherent db hu ps d' h2 0 q' (by rw [hps]; rfl)).2 hr
            exact ⟨x, by rw [← hps]; simp [hx], hx2⟩
    · constructor
      · intro as has; simp [askAll, h1] at has
      · intro _; exact ⟨p, by simp, h2⟩
    · constructor
      · intro as has; simp [askAll, h1] at has
      · intro hub; simp [askAll, h1] at hub

end Boxes
