import Verif.Lemmas.BxsOps

/-! # Lemmas: `bxs_trimdup`, `bxs_ltrim`, `bxs_is_visible_char`, `bxs_strchr` -/
namespace Boxes
open Spec
set_option linter.unusedSimpArgs false

theorem mem_at (db : CharDb) (ts : List Tok) (i : Nat) (hi : i < (visOf ts).length) :
    (do let p ← (bxsOf db ts).visChar[i]?; (bxsOf db ts).memory[p]?) = some (visOf ts)[i] :=
  memory_at_visChar db ts i hi

theorem trimdupFront_toks (db : CharDb) (ts : List Tok) : ∀ (fuel s e : Nat), s ≤ e → e ≤ (visOf ts).length → e - s ≤ fuel →
    trimdupFront db (bxsOf db ts) fuel s e = some (s + ((((visOf ts).take e).drop s).takeWhile db.ucBlank).length) := by
  intro fuel
  induction fuel with
  | zero =>
    intro s e h1 h2 h3
    have : s = e := by omega
    subst this
    simp [trimdupFront]
  | succ fuel ih =>
    intro s e h1 h2 h3
    unfold trimdupFront
    split
    · rename_i hlt
      obtain ⟨p, hp1, hp2, -⟩ := visChar_eq_some db ts s (by omega)
      simp only [hp1, hp2, Option.bind_eq_bind, Option.bind_some]
      have hd : ((visOf ts).take e).drop s = (visOf ts)[s] :: ((visOf ts).take e).drop (s + 1) := by
        rw [List.drop_eq_getElem_cons (by simp; omega)]
        simp
      rw [hd, List.takeWhile_cons]
      split
      · rw [ih (s + 1) e (by omega) h2 (by omega)]
        simp; omega
      · simp
    · have : s = e := by omega
      subst this
      simp

theorem trimdupBack_toks (db : CharDb) (ts : List Tok) (s : Nat) : ∀ e, s ≤ e → e ≤ (visOf ts).length →
    trimdupBack db (bxsOf db ts) s e =
      some (e - ((((visOf ts).take e).drop s).reverse.takeWhile db.ucBlank).length) := by
  intro e
  induction e with
  | zero => intro h1 h2; simp [trimdupBack]
  | succ e ih =>
    intro h1 h2
    unfold trimdupBack
    split
    · obtain ⟨p, hp1, hp2, -⟩ := visChar_eq_some db ts e (by omega)
      simp only [hp1, hp2, Option.bind_eq_bind, Option.bind_some]
      have hd : ((visOf ts).take (e + 1)).drop s = ((visOf ts).take e).drop s ++ [(visOf ts)[e]] := by
        rw [List.take_succ_eq_append_getElem (by omega), List.drop_append_of_le_length (by simp; omega)]
      rw [hd, List.reverse_append, List.reverse_cons, List.reverse_nil, List.nil_append, List.singleton_append,
        List.takeWhile_cons]
      split
      · rw [ih (by omega) (by omega)]
        simp
      · simp
    · have : s = e + 1 := by omega
      subst this
      have : ((visOf ts).take (e + 1)).drop (e + 1) = [] := by simp [List.drop_take]
      simp [this]

/-- stripping from both ends, as list indices -/
theorem strip_split {p : Nat → Bool} {l x m y : List Nat} (hl : l = x ++ m ++ y) (hx : ∀ c ∈ x, p c = true)
    (hy : ∀ c ∈ y, p c = true) (hm : m = [] ∨ (∃ a, m.head? = some a ∧ p a = false) ∧ ∃ z, m.getLast? = some z ∧ p z = false) :
    (l.take (l.length - ((l.drop (l.takeWhile p).length).reverse.takeWhile p).length)).drop (l.takeWhile p).length = m := by
  rcases hm with rfl | ⟨⟨a, ha, hpa⟩, z, hz, hpz⟩
  · have hall : ∀ c ∈ l, p c = true := by
      intro c hc; rw [hl] at hc; simp at hc; rcases hc with h | h
      · exact hx c h
      · exact hy c h
    have : l.takeWhile p = l := by
      clear hl
      induction l with
      | nil => rfl
      | cons b l ih =>
        rw [List.takeWhile_cons, if_pos (hall b (by simp)), ih (fun c hc => hall c (by simp [hc]))]
    rw [this]
    simp
  · cases m with
    | nil => simp at ha
    | cons b m =>
      simp at ha
      subst ha
      have h1 : l.takeWhile p = x := by
        rw [hl, List.append_assoc, List.takeWhile_append_of_pos hx]
        simp [hpa]
      have h2 : l.drop x.length = (b :: m) ++ y := by rw [hl, List.append_assoc]; simp
      have h3 : ((b :: m) ++ y).reverse.takeWhile p = y.reverse := by
        rw [List.reverse_append, List.takeWhile_append_of_pos (by intro c hc; exact hy c (by simpa using hc))]
        rw [List.getLast?_eq_head?_reverse] at hz
        cases hr : (b :: m).reverse with
        | nil => simp at hr
        | cons d r =>
          rw [hr] at hz
          simp at hz
          subst hz
          simp [hpz]
      rw [h1, h2, h3, hl]
      have : (x ++ (b :: m) ++ y).length - y.reverse.length = (x ++ (b :: m)).length := by simp; omega
      rw [this, List.take_left]
      simp

theorem trimdup_toks (db : CharDb) (ts : List Tok) (hok : Oks ts)
    (hall : (visOf ts).all (isAllowedAnywhere db) = true) (i j : Nat) (hij : i ≤ j) (hj : j ≤ (visOf ts).length)
    {x m y : Str} (hl : ((visOf ts).take j).drop i = x ++ m ++ y) (hx : ∀ c ∈ x, db.ucBlank c = true)
    (hy : ∀ c ∈ y, db.ucBlank c = true)
    (hm : m = [] ∨ (∃ a, m.head? = some a ∧ db.ucBlank a = false) ∧ ∃ z, m.getLast? = some z ∧ db.ucBlank z = false) :
    ∃ t, Oks t ∧ visOf t = m ∧ (bxsOf db ts).trimdup db i j = some (bxsOf db t) := by
  have hst := strip_split hl hx hy hm
  have hvis : (bxsOf db ts).vis = (visOf ts).length := rfl
  unfold Bxs.trimdup
  rw [hvis, if_neg (by omega), if_neg (by omega), if_neg (by omega),
    trimdupFront_toks db ts (j - i) i j hij hj (Nat.le_refl _)]
  have hle1 : (((visOf ts).take j).drop i).length = j - i := by simp; omega
  have htw := (List.takeWhile_sublist (p := db.ucBlank) (l := ((visOf ts).take j).drop i)).length_le
  generalize hk : ((((visOf ts).take j).drop i).takeWhile db.ucBlank).length = k at *
  simp only [Option.bind_eq_bind, Option.bind_some]
  rw [trimdupBack_toks db ts (i + k) j (by omega) hj]
  simp only [Option.bind_some]
  have hdd : ((visOf ts).take j).drop (i + k) = (((visOf ts).take j).drop i).drop k := by rw [List.drop_drop]
  rw [hdd]
  have hle2 := (List.takeWhile_sublist (p := db.ucBlank) (l := ((((visOf ts).take j).drop i).drop k).reverse)).length_le
  generalize hn : (((((visOf ts).take j).drop i).drop k).reverse.takeWhile db.ucBlank).length = n at *
  simp only [List.length_reverse, List.length_drop, List.length_take] at hle2
  obtain ⟨p, q, t, e1, e2, e3, e4, e5, e6⟩ := cut_between db ts hok (i := i + k) (j := j - n) (by omega) (by omega)
  have hvt : visOf t = m := by
    rw [e6, ← hst, hle1]
    have h1 : (visOf ts).take (j - n) = ((visOf ts).take j).take (j - n) := by
      rw [List.take_take, Nat.min_eq_left (by omega)]
    rw [h1]
    generalize (visOf ts).take j = w
    rw [← List.drop_drop, List.drop_take]
    congr 2
    omega
  have hall2 : (visOf t).all (isAllowedAnywhere db) = true :=
    all_allowed_sub hall (fun x hx => by rw [e6] at hx; exact List.mem_of_mem_take (List.mem_of_mem_drop hx))
  have e5' : ((bxsOf db ts).memory.take q).drop p = flat t := e5
  refine ⟨t, e4, hvt, ?_⟩
  rw [e1]
  simp only [Option.bind_some]
  split
  · rw [e2]
    simp only [Option.bind_some]
    rw [e5', fromUnicode_ok db t e4 hall2]
  · have hjn : j - n = (visOf ts).length := by omega
    have hq : q = (flat ts).length := by
      rw [hjn] at e2
      simp only [bxsOf] at e2
      rw [List.getElem?_append_right (by simp [firstPos_length])] at e2
      simpa [firstPos_length] using e2.symm
    have : (bxsOf db ts).memory.drop p = flat t := by
      rw [← e5']
      show _ = ((flat ts).take q).drop p
      rw [hq, List.take_length]; rfl
    rw [this, fromUnicode_ok db t e4 hall2]

theorem ltrimLoop_toks (db : CharDb) (hs : Sane db) (ts : List Tok) (max : Nat) :
    ∀ k i, i + k = max → i ≤ (visOf ts).length →
      ltrimLoop db (bxsOf db ts) k i (min max (visOf ts).length) =
        some (i + min k (((visOf ts).drop i).takeWhile (isBlank db)).length) ∨
      ltrimLoop db (bxsOf db ts) k i (min max (visOf ts).length) = some (min max (visOf ts).length) ∧
        (((visOf ts).drop i).takeWhile (isBlank db)).length ≥ k := by
  intro k
  induction k with
  | zero =>
    intro i h1 h2
    right; exact ⟨rfl, Nat.zero_le _⟩
  | succ k ih =>
    intro i h1 h2
    unfold ltrimLoop
    by_cases hlt : i < (visOf ts).length
    · obtain ⟨p, hp1, hp2, hp3⟩ := visChar_eq_some db ts i hlt
      have hd : (visOf ts).drop i = (visOf ts)[i] :: (visOf ts).drop (i + 1) := List.drop_eq_getElem_cons hlt
      have hg : (bxsOf db ts).memory.getD p 0 = (visOf ts)[i] := by
        rw [List.getD_eq_getElem?_getD, hp2]; rfl
      have hpl : ¬ p > (bxsOf db ts).memory.length := by
        show ¬ p > (flat ts).length
        omega
      simp only [hp1, Option.bind_eq_bind, Option.bind_some]
      rw [hg, if_neg hpl, hd, List.takeWhile_cons]
      split
      · rename_i hb
        left
        rw [if_neg (by simpa using hb)]; simp
      · rename_i hb
        have hb' : isBlank db (visOf ts)[i] = true := by simpa using hb
        rw [if_pos hb']
        rcases ih (i + 1) (by omega) (by omega) with h | ⟨h, h'⟩
        · left
          rw [h]
          simp; omega
        · right
          refine ⟨h, ?_⟩
          simp; omega
    · have hi : i = (visOf ts).length := by omega
      have hv : (bxsOf db ts).visChar[i]? = some (flat ts).length := by
        simp only [bxsOf]
        rw [List.getElem?_append_right (by simp [visPos_length]; omega)]
        simp [visPos_length, hi]
      have hg : (bxsOf db ts).memory.getD (flat ts).length 0 = 0 := by
        rw [List.getD_eq_getElem?_getD]
        show (flat ts)[(flat ts).length]?.getD 0 = 0
        simp
      have hnb : isBlank db 0 = false := by rw [isBlank_iff]; simp [Blank, hs.nul_not_blank]
      simp only [hv, Option.bind_eq_bind, Option.bind_some]
      rw [hg, if_neg (by show ¬ (flat ts).length > (flat ts).length; omega)]
      left
      simp [hnb, hi]

theorem ltrim_toks (db : CharDb) (hs : Sane db) (ts : List Tok) (hok : Oks ts) (max : Nat) :
    ∃ t, Oks t ∧ visOf t = (visOf ts).drop (min max ((visOf ts).takeWhile (isBlank db)).length) ∧ flat t <:+ flat ts ∧
      (bxsOf db ts).ltrim db max = some (flat t) := by
  have hle := (List.takeWhile_sublist (p := isBlank db) (l := visOf ts)).length_le
  have hn : ltrimLoop db (bxsOf db ts) max 0 (min max (visOf ts).length) =
      some (min max ((visOf ts).takeWhile (isBlank db)).length) := by
    rcases ltrimLoop_toks db hs ts max max 0 (by omega) (by omega) with h | ⟨h, h'⟩
    · rw [h]; simp
    · rw [h]
      simp at h'
      congr 1
      omega
  unfold Bxs.ltrim
  have hvis : (bxsOf db ts).vis = (visOf ts).length := rfl
  rw [hvis, hn]
  obtain ⟨t1, t2, e1, e2, e3⟩ := firstChar_cut db ts (min max ((visOf ts).takeWhile (isBlank db)).length) (by omega)
  have hv2 := (visOf_split (t2 := t2) e2).2
  rw [← e1] at hv2
  refine ⟨t2, (e1 ▸ hok).append_right, hv2, ⟨flat t1, by rw [e1]; simp⟩, ?_⟩
  simp only [Option.bind_eq_bind, Option.bind_some]
  rw [e3]
  simp only [Option.bind_some]
  show some ((flat ts).drop _) = _
  conv => lhs; rw [e1]
  simp

/-- positions of visible characters increase -/
theorem visPos_lt (ts : List Tok) : ∀ off (i j p q : Nat), i < j → (visPos off ts)[i]? = some p → (visPos off ts)[j]? = some q →
    p < q := by
  induction ts with
  | nil => intro off i j p q h hp hq; simp [visPos] at hp
  | cons t ts ih =>
    intro off i j p q h hp hq
    cases t with
    | inr e => exact ih _ i j p q h hp hq
    | inl c =>
      cases j with
      | zero => omega
      | succ j =>
        simp [visPos] at hq
        cases i with
        | zero =>
          simp [visPos] at hp
          obtain ⟨t1, d, t2, h1, h2, h3⟩ := visPos_split ts (off + 1) j (by
            have := (List.getElem?_eq_some_iff.1 hq).1
            rwa [visPos_length] at this)
          rw [h3] at hq
          simp at hq
          omega
        | succ i =>
          simp [visPos] at hp
          exact ih _ i j p q (by omega) hp hq

theorem isVisibleChar_iff (db : CharDb) (ts : List Tok) (idx : Nat) :
    (bxsOf db ts).isVisibleChar idx = true ↔ ∃ i, i < (visOf ts).length ∧ (bxsOf db ts).visChar[i]? = some idx := by
  have hvc : ∀ i, i < (visOf ts).length → (bxsOf db ts).visChar[i]? = (visPos 0 ts)[i]? := by
    intro i hi
    simp only [bxsOf]
    rw [List.getElem?_append_left (by rw [visPos_length]; exact hi)]
  -- the i-th position is at least i
  have hge : ∀ i p, i < (visOf ts).length → (bxsOf db ts).visChar[i]? = some p → i ≤ p := by
    intro i
    induction i with
    | zero => intros; omega
    | succ i ih =>
      intro p hi hp
      obtain ⟨q, hq, -, -⟩ := visChar_eq_some db ts i (by omega)
      have h1 := ih q (by omega) hq
      rw [hvc _ (by omega)] at hp hq
      have := visPos_lt ts 0 i (i + 1) q p (by omega) hq hp
      omega
  have go : ∀ k i, i + k = (visOf ts).length →
      (Bxs.isVisibleChar.go (bxsOf db ts) idx k i = true ↔
        ∃ m, i ≤ m ∧ m < (visOf ts).length ∧ (bxsOf db ts).visChar[m]? = some idx) := by
    intro k
    induction k with
    | zero =>
      intro i h
      simp only [Bxs.isVisibleChar.go, Bool.false_eq_true, false_iff]
      rintro ⟨m, h1, h2, h3⟩; omega
    | succ k ih =>
      intro i h
      unfold Bxs.isVisibleChar.go
      have hi : i < (visOf ts).length := by omega
      obtain ⟨p, hp, -, -⟩ := visChar_eq_some db ts i hi
      split
      · rw [hp]
        simp only
        split
        · rename_i he
          simp only [true_iff]
          exact ⟨i, Nat.le_refl _, hi, by rw [hp, he]⟩
        · rename_i hne
          split
          · rename_i hgt
            simp only [Bool.false_eq_true, false_iff]
            rintro ⟨m, h1, h2, h3⟩
            rcases Nat.lt_or_ge i m with hlt | hge'
            · rw [hvc _ h2] at h3; rw [hvc _ hi] at hp
              have := visPos_lt ts 0 i m p idx hlt hp h3
              omega
            · have : m = i := by omega
              subst this; rw [hp] at h3; simp at h3; omega
          · rw [ih (i + 1) (by omega)]
            constructor
            · rintro ⟨m, h1, h2⟩; exact ⟨m, by omega, h2⟩
            · rintro ⟨m, h1, h2, h3⟩
              refine ⟨m, ?_, h2, h3⟩
              rcases Nat.lt_or_ge i m with hlt | hge'
              · omega
              · have : m = i := by omega
                subst this; rw [hp] at h3; simp at h3; omega
      · rename_i hc
        simp only [Bool.false_eq_true, false_iff]
        rintro ⟨m, h1, h2, h3⟩
        have := hge m idx h2 h3
        apply hc
        exact ⟨by omega, hi⟩
  unfold Bxs.isVisibleChar
  have hvis : (bxsOf db ts).vis = (visOf ts).length := rfl
  rw [hvis, go _ 0 (by omega)]
  constructor
  · rintro ⟨m, -, h⟩; exact ⟨m, h⟩
  · rintro ⟨m, h⟩; exact ⟨m, Nat.zero_le _, h⟩

end Boxes
