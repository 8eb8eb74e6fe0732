import Verif.Spec.Ends
import Verif.Props.Pipe
import Verif.Props.Precalc

/-!
# The loops of the program end
-/
namespace Boxes
open Spec ShapeName
set_option linter.unusedSimpArgs false

/-- each side has elastic shapes as required -/
structure GoodSides (d : Design) : Prop where
  top : GoodSide (slots (·.width) d [NNW, N, NNE])
  bottom : GoodSide (slots (·.width) d [SSE, S, SSW])
  left : GoodSide (slots (·.height) d [WSW, W, WNW])
  right : GoodSide (slots (·.height) d [ENE, E, ESE])

theorem common_any {s s' : List Slot} (h : GoodSide s) (h' : GoodSide s') (t t' : Nat) : (∃ n, Common s s' t n) ↔ ∃ n, Common s s' t' n := by
  rw [common_iff h h', common_iff h h']

theorem horizGenerate_ends (db : CharDb) {d : Design} (hg : GoodSides d) (hm : SidesMeet d) (maxline : Nat) :
    ∃ fuel r, horizGenerate db d maxline fuel = some r := by
  have : ∃ fuel r, horizPrecalc d maxline fuel = some r := by
    unfold horizPrecalc
    cases ht : targetLen maxline d.minwidth (d.shape NW).width (d.shape NE).width with
    | ok t =>
      obtain ⟨fuel, r, h⟩ := (precalc_spec (·.width) (d.shape NNW) (d.shape N) (d.shape NNE)
        (d.shape SSE) (d.shape S) (d.shape SSW) t hg.top hg.bottom).2.2 ((common_any hg.top hg.bottom 0 t).1 hm.horizontal)
      exact ⟨fuel, _, Option.map_eq_some_iff.2 ⟨r, h, rfl⟩⟩
    | fail n => exact ⟨0, _, rfl⟩
    | ub => exact ⟨0, _, rfl⟩
  obtain ⟨fuel, r, h⟩ := this
  exact ⟨fuel, _, by unfold horizGenerate; rw [h]; rfl⟩

theorem vertGenerate_ends {d : Design} (hg : GoodSides d) (hm : SidesMeet d) (n : Nat) : ∃ fuel r, vertGenerate d n fuel = some r := by
  have : ∃ fuel r, vertPrecalc d n fuel = some r := by
    unfold vertPrecalc
    cases ht : targetLen n d.minheight (d.shape SW).height (d.shape NW).height with
    | ok t =>
      obtain ⟨fuel, r, h⟩ := (precalc_spec (·.height) (d.shape WSW) (d.shape W) (d.shape WNW)
        (d.shape ENE) (d.shape E) (d.shape ESE) t hg.left hg.right).2.2 ((common_any hg.left hg.right 0 t).1 hm.vertical)
      exact ⟨fuel, _, Option.map_eq_some_iff.2 ⟨r, h, rfl⟩⟩
    | fail n => exact ⟨0, _, rfl⟩
    | ub => exact ⟨0, _, rfl⟩
  obtain ⟨fuel, r, h⟩ := this
  exact ⟨fuel, _, by unfold vertGenerate; rw [h]; rfl⟩

theorem generateBox_ends (db : CharDb) {d : Design} (hg : GoodSides d) (hm : SidesMeet d) (i : Input) : ∃ fuel r, generateBox db d i fuel = some r := by
  obtain ⟨f1, r1, h1⟩ := horizGenerate_ends db hg hm i.maxline
  obtain ⟨f2, r2, h2⟩ := vertGenerate_ends hg hm i.lines.length
  have k1 : horizGenerate db d i.maxline (max f1 f2) = some r1 := by
    unfold horizGenerate horizPrecalc at h1 ⊢
    simp only at h1 ⊢
    split at h1
    · simp only [Option.map_eq_some_iff] at h1 ⊢
      obtain ⟨y, ⟨z, hz, hy⟩, hx⟩ := h1
      exact ⟨y, ⟨z, precalcLoop_more _ _ _ _ _ _ (by omega) hz, hy⟩, hx⟩
    · exact h1
    · exact h1
  have k2 : vertGenerate d i.lines.length (max f1 f2) = some r2 := by
    unfold vertGenerate vertPrecalc at h2 ⊢
    simp only at h2 ⊢
    split at h2
    · simp only [Option.map_eq_some_iff] at h2 ⊢
      obtain ⟨y, ⟨z, hz, hy⟩, hx⟩ := h2
      exact ⟨y, ⟨z, precalcLoop_more _ _ _ _ _ _ (by omega) hz, hy⟩, hx⟩
    · exact h2
    · exact h2
  refine ⟨max f1 f2, ?_⟩
  unfold generateBox
  rw [k1]
  cases r1 with
  | ok q => exact ⟨_, by simp only [k2, Option.map_some]; rfl⟩
  | fail n => exact ⟨_, rfl⟩
  | ub => exact ⟨_, rfl⟩

/-- a design, possibly with answers in its caches, with which boxes can be drawn -/
def Closable (db : CharDb) (d : Design) : Prop := ∃ d0, Unasked d0 ∧ Coherent db d0 d ∧ GoodSides d0 ∧ SidesMeet d0

theorem slots_same {db : CharDb} {d0 d : Design} (h : Coherent db d0 d) (l : List ShapeName) :
    slots (·.width) d l = slots (·.width) d0 l ∧ slots (·.height) d l = slots (·.height) d0 l := by
  have hp : ∀ n, Present (d.shape n) ↔ Present (d0.shape n) := by
    intro n
    unfold Present
    rw [(h.same n).2.1, (h.same n).2.2, (h.measures n).1]
  unfold slots
  constructor <;> refine List.map_congr_left fun n _ => ?_ <;> unfold slotOf <;>
    simp only [hp n, (h.same n).2.2, (h.measures n).1, (h.measures n).2]

theorem Closable.sides {db : CharDb} {d : Design} (h : Closable db d) : GoodSides d ∧ SidesMeet d := by
  obtain ⟨d0, -, hc, hg, hm⟩ := h
  have s := slots_same hc
  refine ⟨⟨?_, ?_, ?_, ?_⟩, ⟨?_, ?_⟩⟩
  · rw [(s _).1]; exact hg.top
  · rw [(s _).1]; exact hg.bottom
  · rw [(s _).2]; exact hg.left
  · rw [(s _).2]; exact hg.right
  · rw [(s _).1, (s _).1]; exact hm.horizontal
  · rw [(s _).2, (s _).2]; exact hm.vertical

theorem Closable.reshape {db : CharDb} {d e : Design} (h : Closable db d) (he : e.shape = d.shape) : Closable db e := by
  obtain ⟨d0, hu, hc, hg, hm⟩ := h
  exact ⟨d0, hu, ⟨by rw [he]; exact hc.same, by rw [he]; exact hc.measures, by rw [he]; exact hc.entries⟩, hg, hm⟩

theorem detectRound_keeps {D : Type} {P : D → Prop} {score : D → Res (Nat × D)} {viable : D → Res Bool}
    (hs : ∀ d n d', P d → score d = .ok (n, d') → P d') : ∀ (ds : List D) (i : Nat) (b : Option Nat × Nat) (q : (Option Nat × Nat) × List D),
      (∀ d ∈ ds, P d) → detectRound score viable ds i b = .ok q → ∀ d ∈ q.2, P d
  | [], i, b, q, _, h => by
    simp only [detectRound, Res.ok.injEq] at h
    subst h
    simp
  | d :: ds, i, b, q, hP, h => by
    simp only [detectRound, Res.bind_eq_ok] at h
    obtain ⟨v, hv, h⟩ := h
    split at h
    · simp only [Res.bind_eq_ok, Res.ok.injEq] at h
      obtain ⟨x, hx, y, hy, rfl⟩ := h
      have := detectRound_keeps hs ds _ _ _ (fun d hd => hP d (List.mem_cons_of_mem _ hd)) hy
      intro e he
      rcases List.mem_cons.1 he with rfl | he
      · exact hs d x.1 x.2 (hP d List.mem_cons_self) hx
      · exact this e he
    · simp only [Res.bind_eq_ok, Res.ok.injEq] at h
      obtain ⟨y, hy, rfl⟩ := h
      have := detectRound_keeps hs ds _ _ _ (fun d hd => hP d (List.mem_cons_of_mem _ hd)) hy
      intro e he
      rcases List.mem_cons.1 he with rfl | he
      · exact hP _ List.mem_cons_self
      · exact this e he

theorem detectRounds_keeps {D : Type} {P : D → Prop} {score : CompType → D → Res (Nat × D)} {viable : CompType → D → Res Bool}
    (hs : ∀ c d n d', P d → score c d = .ok (n, d') → P d') : ∀ (cs : List CompType) (ds : List D) (b : Option Nat × Nat) (q : (Option Nat × Nat) × List D),
      (∀ d ∈ ds, P d) → detectRounds score viable cs ds b = .ok q → ∀ d ∈ q.2, P d
  | [], ds, b, q, hP, h => by
    simp only [detectRounds, Res.ok.injEq] at h
    subst h
    exact hP
  | c :: cs, ds, b, q, hP, h => by
    simp only [detectRounds, Res.bind_eq_ok] at h
    obtain ⟨x, hx, h⟩ := h
    have h1 := detectRound_keeps (hs c) ds 0 b x hP hx
    split at h
    · simp only [Res.ok.injEq] at h
      subst h
      exact h1
    · exact detectRounds_keeps hs cs x.2 x.1 q h1 h

theorem detect_closable {db : CharDb} {ds : List Design} (hd : ∀ d ∈ ds, Closable db d) {lines : List Line} {chosen : Option Nat}
    {q : Nat × List Design} (h : detectDesignIfNeeded db ds lines chosen = .ok q) : ∀ d ∈ q.2, Closable db d := by
  unfold detectDesignIfNeeded at h
  split at h
  · simp only [Res.ok.injEq] at h
    subst h
    exact hd
  · simp only [Res.bind_eq_ok] at h
    obtain ⟨x, hx, h⟩ := h
    have hk : ∀ d ∈ x.2, Closable db d := by
      unfold autodetectDesign at hx
      simp only [Res.bind_eq_ok, Res.ok.injEq] at hx
      obtain ⟨mono, -, y, hy, rfl⟩ := hx
      refine detectRounds_keeps (P := Closable db) ?_ _ _ _ _ hd hy
      rintro c d n d' ⟨d0, hu, hc, hg⟩ hs
      exact ⟨d0, hu, (matchDesign_congr hu hc lines c hs).1, hg⟩
    split at h
    · simp only [Res.ok.injEq] at h
      subst h
      exact hk
    · cases h

theorem closable_set {db : CharDb} {ds : List Design} (hd : ∀ d ∈ ds, Closable db d) (k : Nat) {e : Design} (he : Closable db e) :
    ∀ d ∈ ds.set k e, Closable db d := by
  intro d h
  rcases List.mem_or_eq_of_mem_set h with h | rfl
  · exact hd d h
  · exact he

/-- `mainPhase` with the options of the round -/
def phaseBody (s : Setup) (savedWidth savedHeight : Nat) (w : World) (opt : Opt) : Option (Res (Bool × World × List Event)) :=
  match w.designs[w.cur]? with
  | none => some .ub
  | some d0 =>
    let d := { d0 with minwidth := savedWidth, minheight := savedHeight }
    let w := { w with opt, designs := w.designs.set w.cur d }
    match handleInput s w d with
    | .fail n => some (.fail n)
    | .ub => some .ub
    | .ok q =>
      if q.1.lines = [] then some (.ok (true, { w with input := q.1 }, q.2))
      else
        let d := adjustSizeAndPadding opt d q.1
        let w := { w with designs := w.designs.set w.cur d, input := q.1 }
        if opt.r then
          match removePhase s w d with
          | .fail n => some (.fail n)
          | .ub => some .ub
          | .ok r => some (.ok (false, r.1, q.2 ++ r.2))
        else
          (handleGenerateBox s.db opt d q.1 s.fuel).map (fun r => do
            let out ← r
            .ok (false, w, q.2 ++ [.drawn out]))

theorem mainPhase_body (s : Setup) (sw sh : Nat) (w : World) : mainPhase s sw sh w =
    phaseBody s sw sh w { w.opt with r := if w.opt.mend = 1 then false else w.opt.r, mend := w.opt.mend - 1 } := rfl

theorem mainPhase_ends (s : Setup) (sw sh : Nat) (w : World) (hd : ∀ d ∈ w.designs, Closable s.db d) :
    ∃ fuel r, mainPhase { s with fuel } sw sh w = some r := by
  simp only [mainPhase_body]
  generalize ({ w.opt with r := if w.opt.mend = 1 then false else w.opt.r, mend := w.opt.mend - 1 } : Opt) = opt
  unfold phaseBody
  dsimp only
  cases hk : w.designs[w.cur]? with
  | none => exact ⟨0, _, rfl⟩
  | some d0 =>
    have h0 := hd d0 (List.mem_of_getElem? hk)
    simp only
    unfold handleInput
    dsimp only
    generalize (if opt.mend ≠ 0 then _ else _ : Res (Input × List Event)) = hi
    cases hi with
    | fail n => exact ⟨0, _, rfl⟩
    | ub => exact ⟨0, _, rfl⟩
    | ok q =>
      dsimp only
      split
      · exact ⟨0, _, rfl⟩
      split
      · refine ⟨0, ?_⟩
        split <;> exact ⟨_, rfl⟩
      · have h1 := (h0.reshape (e := adjustSizeAndPadding opt { d0 with minwidth := sw, minheight := sh } q.1) ((C21_padding _ _ _).2.2.1)).sides
        obtain ⟨f, r, h⟩ := generateBox_ends s.db h1.1 h1.2 q.1
        exact ⟨f, _, by unfold handleGenerateBox; rw [h]; rfl⟩

theorem mainPhase_keeps (s : Setup) (sw sh : Nat) (w : World) (hd : ∀ d ∈ w.designs, Closable s.db d) {b : Bool} {w' : World} {ev : List Event}
    (h : mainPhase s sw sh w = some (.ok (b, w', ev))) : (∀ d ∈ w'.designs, Closable s.db d) ∧ w'.opt.mend = w.opt.mend - 1 := by
  rw [mainPhase_body] at h
  have hm : ({ w.opt with r := if w.opt.mend = 1 then false else w.opt.r, mend := w.opt.mend - 1 } : Opt).mend = w.opt.mend - 1 := rfl
  generalize ({ w.opt with r := if w.opt.mend = 1 then false else w.opt.r, mend := w.opt.mend - 1 } : Opt) = opt at h hm
  unfold phaseBody at h
  cases hk : w.designs[w.cur]? with
  | none => rw [hk] at h; simp at h
  | some d0 =>
    rw [hk] at h
    have h0 := hd d0 (List.mem_of_getElem? hk)
    have k1 : Closable s.db { d0 with minwidth := sw, minheight := sh } := h0.reshape rfl
    have ks := closable_set hd w.cur k1
    dsimp only at h
    split at h
    · simp at h
    · simp at h
    rename_i q _
    have k2 : Closable s.db (adjustSizeAndPadding opt { d0 with minwidth := sw, minheight := sh } q.1) := h0.reshape ((C21_padding _ _ _).2.2.1)
    have ks2 := closable_set ks w.cur k2
    split at h
    · simp only [Option.some.injEq, Res.ok.injEq, Prod.mk.injEq] at h
      obtain ⟨-, rfl, -⟩ := h
      exact ⟨ks, hm⟩
    split at h
    · split at h
      · simp at h
      · simp at h
      · rename_i r hr
        simp only [Option.some.injEq, Res.ok.injEq, Prod.mk.injEq] at h
        obtain ⟨-, rfl, -⟩ := h
        unfold removePhase at hr
        simp only [Res.bind_eq_ok, Res.ok.injEq] at hr
        obtain ⟨x, hx, d', -, y, -, rfl⟩ := hr
        exact ⟨detect_closable ks2 hx, hm⟩
    · simp only [Option.map_eq_some_iff, Res.bind_eq_ok, Res.ok.injEq, Prod.mk.injEq] at h
      obtain ⟨r, -, out, -, -, rfl, -⟩ := h
      exact ⟨ks2, hm⟩

theorem mainLoop_ends (s : Setup) (sw sh : Nat) : ∀ (k : Nat) (w : World), (∀ d ∈ w.designs, Closable s.db d) → w.opt.mend ≤ k →
    ∃ fuel r, mainLoop { s with fuel } sw sh fuel w = some r := by
  intro k
  induction k with
  | zero =>
    intro w hd hk
    obtain ⟨f, r, h⟩ := mainPhase_ends s sw sh w hd
    refine ⟨f + 1, ?_⟩
    unfold mainLoop
    rw [mainPhase_more { s with fuel := f } (f' := f + 1) (by show f ≤ f + 1; omega) sw sh w h]
    cases r with
    | fail n => exact ⟨_, rfl⟩
    | ub => exact ⟨_, rfl⟩
    | ok q =>
      obtain ⟨b, w', ev⟩ := q
      have := (mainPhase_keeps { s with fuel := f } _ _ _ hd h).2
      dsimp only
      rw [if_neg (by rw [this]; intro hx; have := hx.2; simp at hk; omega)]
      exact ⟨_, rfl⟩
  | succ k ih =>
    intro w hd hk
    obtain ⟨f, r, h⟩ := mainPhase_ends s sw sh w hd
    cases r with
    | fail n => exact ⟨f + 1, _, by
        unfold mainLoop
        rw [mainPhase_more { s with fuel := f } (f' := f + 1) (by show f ≤ f + 1; omega) sw sh w h]⟩
    | ub => exact ⟨f + 1, _, by
        unfold mainLoop
        rw [mainPhase_more { s with fuel := f } (f' := f + 1) (by show f ≤ f + 1; omega) sw sh w h]⟩
    | ok q =>
      obtain ⟨b, w', ev⟩ := q
      obtain ⟨h1, h2⟩ := mainPhase_keeps { s with fuel := f } _ _ _ hd h
      obtain ⟨g, r', hg⟩ := ih w' h1 (by rw [h2]; omega)
      refine ⟨max f g + 1, ?_⟩
      unfold mainLoop
      rw [mainPhase_more { s with fuel := f } (f' := max f g + 1) (by show f ≤ _; omega) sw sh w h]
      dsimp only
      split
      · have := mainLoop_more { s with fuel := g } (f' := max f g + 1) (by show g ≤ _; omega) sw sh g (max f g) w' r' (by omega) hg
        exact ⟨_, by rw [this]; rfl⟩
      · exact ⟨_, rfl⟩

theorem runProgram_ends (s : Setup) (opt : Opt) (ds : List Design) (hd : ∀ d ∈ ds, Closable s.db d) :
    ∃ fuel r, runProgram { s with fuel } opt ds fuel = some r := by
  unfold runProgram
  cases h0 : ds[0]? with
  | none => exact ⟨0, _, rfl⟩
  | some d0 =>
    have h1 := (hd d0 (List.mem_of_getElem? h0)).reshape (e := prepareDesign opt d0) (by unfold prepareDesign; split <;> rfl)
    exact mainLoop_ends s _ _ opt.mend.toNat _ (closable_set hd 0 h1) (by show opt.mend ≤ _; omega)

end Boxes
