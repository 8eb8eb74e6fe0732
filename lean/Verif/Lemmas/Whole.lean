import Verif.Spec.Whole
import Verif.Props.Main
import Verif.Props.Build
import Verif.Props.Merge
import Verif.Props.Options
import Verif.Props.Print
import Verif.Props.Parse
import Verif.Lemmas.Program

/-!
# Lemmas about the complete program
-/
namespace Boxes
open Spec ShapeName
set_option linter.unusedSimpArgs false

/-! ## more fuel changes nothing -/

theorem precalcLoop_more (target : Nat) : ∀ (f f' : Nat) (t b : SideSt) (r : Res (SideSt × SideSt)), f ≤ f' →
    precalcLoop target f t b = some r → precalcLoop target f' t b = some r := by
  intro f
  induction f with
  | zero => intro f' t b r _ h; simp [precalcLoop] at h
  | succ f ih =>
    intro f' t b r hf h
    obtain ⟨g, rfl⟩ : ∃ g, f' = g + 1 := ⟨f' - 1, by omega⟩
    unfold precalcLoop at h ⊢
    split at h
    · exact h
    · split at h
      · rename_i hc
        rw [if_pos hc]
        exact ih g _ _ r (by omega) h
      · rename_i hc
        rw [if_neg hc]
        exact h

theorem generateBox_more (db : CharDb) (d : Design) (i : Input) {f f' : Nat} (hf : f ≤ f') {r : Res (Sides Shape)}
    (h : generateBox db d i f = some r) : generateBox db d i f' = some r := by
  have hh : ∀ x, horizGenerate db d i.maxline f = some x → horizGenerate db d i.maxline f' = some x := by
    intro x hx
    unfold horizGenerate horizPrecalc at hx ⊢
    simp only at hx ⊢
    split at hx
    · rename_i t ht
      simp only [Option.map_eq_some_iff] at hx ⊢
      obtain ⟨y, ⟨z, hz, hy⟩, hx⟩ := hx
      exact ⟨y, ⟨z, precalcLoop_more _ _ _ _ _ _ hf hz, hy⟩, hx⟩
    · exact hx
    · exact hx
  have hv : ∀ x, vertGenerate d i.lines.length f = some x → vertGenerate d i.lines.length f' = some x := by
    intro x hx
    unfold vertGenerate vertPrecalc at hx ⊢
    simp only at hx ⊢
    split at hx
    · rename_i t ht
      simp only [Option.map_eq_some_iff] at hx ⊢
      obtain ⟨y, ⟨z, hz, hy⟩, hx⟩ := hx
      exact ⟨y, ⟨z, precalcLoop_more _ _ _ _ _ _ hf hz, hy⟩, hx⟩
    · exact hx
    · exact hx
  unfold generateBox at h ⊢
  cases hg : horizGenerate db d i.maxline f with
  | none => rw [hg] at h; simp at h
  | some x =>
    rw [hg] at h
    rw [hh x hg]
    cases x with
    | ok x =>
      obtain ⟨t, b⟩ := x
      simp only [Option.map_eq_some_iff] at h ⊢
      obtain ⟨y, h1, h2⟩ := h
      exact ⟨y, hv y h1, h2⟩
    | fail n => exact h
    | ub => exact h

theorem handleGenerateBox_more (db : CharDb) (opt : Opt) (d : Design) (i : Input) {f f' : Nat} (hf : f ≤ f')
    {r : Res (List (Bxs × Str))} (h : handleGenerateBox db opt d i f = some r) : handleGenerateBox db opt d i f' = some r := by
  unfold handleGenerateBox at h ⊢
  simp only [Option.map_eq_some_iff] at h ⊢
  obtain ⟨y, h1, h2⟩ := h
  exact ⟨y, generateBox_more db d i hf h1, h2⟩

theorem mainPhase_more (s : Setup) {f' : Nat} (hf : s.fuel ≤ f') (sw sh : Nat) (w : World) {r : Res (Bool × World × List Event)}
    (h : mainPhase s sw sh w = some r) : mainPhase { s with fuel := f' } sw sh w = some r := by
  unfold mainPhase at h ⊢
  simp only at h ⊢
  split at h
  · exact h
  · rename_i d0 hd0
    have hi : ∀ w d, handleInput { s with fuel := f' } w d = handleInput s w d := fun _ _ => rfl
    have hr : ∀ w d, removePhase { s with fuel := f' } w d = removePhase s w d := fun _ _ => rfl
    rw [hi]
    split at h
    · exact h
    · exact h
    · rename_i q hq
      split at h
      · rename_i hl; rw [if_pos hl]; exact h
      · rename_i hl
        rw [if_neg hl]
        by_cases ho : (if w.opt.mend = 1 then false else w.opt.r) = true
        · rw [if_pos ho] at h ⊢
          rw [hr]
          exact h
        · rw [if_neg ho] at h ⊢
          simp only [Option.map_eq_some_iff] at h ⊢
          obtain ⟨y, h1, h2⟩ := h
          exact ⟨y, handleGenerateBox_more _ _ _ _ hf h1, h2⟩

theorem mainLoop_more (s : Setup) {f' : Nat} (hf : s.fuel ≤ f') (sw sh : Nat) : ∀ (n n' : Nat) (w : World) (r : Res (List Event)), n ≤ n' →
    mainLoop s sw sh n w = some r → mainLoop { s with fuel := f' } sw sh n' w = some r := by
  intro n
  induction n with
  | zero => intro n' w r _ h; simp [mainLoop] at h
  | succ n ih =>
    intro n' w r hn h
    obtain ⟨g, rfl⟩ : ∃ g, n' = g + 1 := ⟨n' - 1, by omega⟩
    unfold mainLoop at h ⊢
    cases hp : mainPhase s sw sh w with
    | none => rw [hp] at h; simp at h
    | some x =>
      rw [hp] at h
      rw [mainPhase_more s hf sw sh w hp]
      cases x with
      | ok x =>
        obtain ⟨done, w', ev⟩ := x
        simp only at h ⊢
        split at h
        · rename_i hc
          rw [if_pos hc]
          simp only [Option.map_eq_some_iff] at h ⊢
          obtain ⟨y, h1, h2⟩ := h
          exact ⟨y, ih g w' y (by omega) h1, h2⟩
        · rename_i hc
          rw [if_neg hc]
          exact h
      | fail k => exact h
      | ub => exact h

theorem runProgram_more (s : Setup) {f' : Nat} (hf : s.fuel ≤ f') (opt : Opt) (ds : List Design) {n n' : Nat} (hn : n ≤ n')
    {r : Res (List Event)} (h : runProgram s opt ds n = some r) : runProgram { s with fuel := f' } opt ds n' = some r := by
  unfold runProgram at h ⊢
  split at h
  · exact h
  · exact mainLoop_more s hf _ _ n n' _ r hn h

theorem mergeLoop_more (env : ParseEnv) (contents : Bxs → Option (List Decl)) : ∀ (f f' : Nat) (file : Bxs) (res : List DesignDef) (ps : List Bxs)
    (k : Nat) (r : Res (List DesignDef × List Bxs)), f ≤ f' → mergeLoop env contents f file res ps k = some r →
    mergeLoop env contents f' file res ps k = some r := by
  intro f
  induction f with
  | zero => intro f' file res ps k r _ h; simp [mergeLoop] at h
  | succ f ih =>
    intro f' file res ps k r hf h
    obtain ⟨g, rfl⟩ : ∃ g, f' = g + 1 := ⟨f' - 1, by omega⟩
    unfold mergeLoop at h ⊢
    split at h
    · exact h
    · exact h
    · rename_i ds qs hq
      simp only at h ⊢
      split at h
      · rename_i nx hnx
        exact ih g _ _ _ _ r (by omega) h
      · exact h

theorem parseConfigFiles_more (env : ParseEnv) (contents : Bxs → Option (List Decl)) {f f' : Nat} (hf : f ≤ f') (file : Bxs)
    {r : Res (List DesignDef × List Bxs)} (h : parseConfigFiles env contents f file = some r) :
    parseConfigFiles env contents f' file = some r := by
  unfold parseConfigFiles at h ⊢
  cases hm : mergeLoop env contents f file [] [] 0 with
  | none => rw [hm] at h; simp at h
  | some x =>
    rw [mergeLoop_more env contents f f' _ _ _ _ x hf hm]
    rw [hm] at h
    exact h

theorem loadDesigns_more (m : Machine) (a : Args) (file : Bxs) {f f' : Nat} (hf : f ≤ f') {r : Res (List DesignDef × List Bxs × Bxs)}
    (h : loadDesigns m a file f = some r) : loadDesigns m a file f' = some r := by
  unfold loadDesigns at h ⊢
  split at h
  · simp only [Option.map_eq_some_iff] at h ⊢
    obtain ⟨y, h1, h2⟩ := h
    exact ⟨y, parseConfigFiles_more _ _ hf _ h1, h2⟩
  · exact h

theorem mainTask_more (m : Machine) (a : Args) (file : Bxs) (ds : List DesignDef) (ps : List Bxs) (di : Bxs) {f f' : Nat} (hf : f ≤ f')
    {r : Res Str} (h : mainTask m a file ds ps di f = some r) : mainTask m a file ds ps di f' = some r := by
  unfold mainTask at h ⊢
  simp only at h ⊢
  split at h
  · rename_i hl
    rw [if_pos hl]
    exact h
  · rename_i hl
    rw [if_neg hl]
    split at h
    · rename_i hq
      rw [if_pos hq]
      exact h
    · rename_i hq
      rw [if_neg hq]
      simp only [Option.map_eq_some_iff] at h ⊢
      obtain ⟨y, h1, h2⟩ := h
      exact ⟨y, runProgram_more _ hf _ _ hf h1, h2⟩

/-! ## the file of the first design -/

theorem definingFile_first (env : ParseEnv) (contents : Bxs → Option (List Decl)) (fuel : Nat) (first : Bxs) (d : DesignDef)
    (ds : List DesignDef) (ps : List Bxs) (h : parseConfigFiles env contents fuel first = some (.ok (d :: ds, ps))) :
    ∃ f before after ds' ps', first :: ps = before ++ f :: after ∧ definingFile env contents (first :: ps) = some f ∧
      parseConfigFile env contents f [] = .ok (d :: ds', ps') ∧
      ∀ g ∈ before, ∃ qs, parseConfigFile env contents g [] = .ok ([], qs) := by
  obtain ⟨vs, h1, h2, h3, -, -⟩ := C33_merged env contents fuel first _ _ h
  have key : ∀ (vs pre : List Visit) (hn : ∀ v ∈ pre, v.designs = []),
      (∀ i v, (pre ++ vs)[i]? = some v → ∃ known, Firsts SameDesign (((pre ++ vs).take i).flatMap (·.designs)) known ∧
        parseConfigFile env contents v.file known = .ok (v.designs, v.parents)) →
      Firsts SameDesign ((pre ++ vs).flatMap (·.designs)) (d :: ds) →
      ∃ f before after ds' ps', vs.map (·.file) = before ++ f :: after ∧ definingFile env contents (vs.map (·.file)) = some f ∧
        parseConfigFile env contents f [] = .ok (d :: ds', ps') ∧
        ∀ g ∈ before, ∃ qs, parseConfigFile env contents g [] = .ok ([], qs) := by
    intro vs
    induction vs with
    | nil =>
      intro pre hn _ hd
      have e : (pre ++ []).flatMap Visit.designs = [] := by
        rw [List.append_nil, List.flatMap_eq_nil_iff]
        exact hn
      rw [e] at hd
      have := hd.order.length_le
      simp at this
    | cons v vs ih =>
      intro pre hn hp hd
      obtain ⟨known, k1, k2⟩ := hp pre.length v (by simp)
      have e : ((pre ++ v :: vs).take pre.length).flatMap Visit.designs = [] := by
        rw [List.take_left, List.flatMap_eq_nil_iff]
        exact hn
      rw [e] at k1
      have hk : known = [] := by
        have := k1.order.length_le
        exact List.length_eq_zero_iff.1 (by simpa using this)
      subst hk
      by_cases hv : v.designs = []
      · rw [hv] at k2
        have hn' : ∀ w ∈ pre ++ [v], w.designs = [] := by
          intro w hw
          rcases List.mem_append.1 hw with hw | hw
          · exact hn w hw
          · rw [List.mem_singleton.1 hw]; exact hv
        obtain ⟨f, before, after, ds', ps', g1, g2, g3, g4⟩ := ih (pre ++ [v]) hn' (by simpa using hp) (by simpa using hd)
        refine ⟨f, v.file :: before, after, ds', ps', by simp [g1], ?_, g3, ?_⟩
        · unfold definingFile at g2 ⊢
          rw [List.map_cons, List.find?_cons, k2]
          exact g2
        · intro g hg
          rcases List.mem_cons.1 hg with rfl | hg
          · exact ⟨_, k2⟩
          · exact g4 g hg
      · obtain ⟨x, xs, hx⟩ := List.exists_cons_of_ne_nil hv
        rw [hx] at k2
        have hxd : x = d := by
          have e2 : (pre ++ v :: vs).flatMap Visit.designs = x :: (xs ++ vs.flatMap (·.designs)) := by
            rw [List.flatMap_append, List.flatMap_eq_nil_iff.2 hn, List.flatMap_cons, hx]
            rfl
          rw [e2] at hd
          have := hd.head
          simp only [List.head?_cons, Option.some.injEq] at this
          exact this.symm
        subst hxd
        refine ⟨v.file, [], vs.map (·.file), xs, v.parents, rfl, ?_, k2, by simp⟩
        unfold definingFile
        rw [List.map_cons, List.find?_cons, k2]
  obtain ⟨f, before, after, ds', ps', g1, g2, g3, g4⟩ := key vs [] (by simp) (by simpa using h2) (by simpa using h3)
  exact ⟨f, before, after, ds', ps', by rw [← h1, g1], by rw [← h1]; exact g2, g3, g4⟩

/-! ## mending is not looked at when drawing -/

theorem drawOnce_mend (db : CharDb) (opt : Opt) (k : Int) (d : Design) (rules : List Subst) (junk : Nat) (pieces : List Str) (fuel : Nat) :
    drawOnce db { opt with mend := k } d rules junk pieces fuel = drawOnce db opt d rules junk pieces fuel := by
  have h0 : ∀ l, readLines db { opt with mend := k } junk l = readLines db opt junk l := by
    intro l
    induction l with
    | nil => rfl
    | cons s r ih => rw [readLines, readLines, ih]; rfl
  have h1 : readAllInput db { opt with mend := k } junk pieces = readAllInput db opt junk pieces := by
    unfold readAllInput; rw [h0]
  have h2 : ∀ i, analyzeInput db { opt with mend := k } d rules i = analyzeInput db opt d rules i := fun _ => rfl
  have h3 : ∀ j, adjustSizeAndPadding { opt with mend := k } d j = adjustSizeAndPadding opt d j := fun _ => rfl
  have h4 : ∀ d j box lay n x y, outputLoop db { opt with mend := k } d j box lay n x y = outputLoop db opt d j box lay n x y := by
    intro d j box lay n
    induction n with
    | zero => intros; rfl
    | succ n ih =>
      intro x y
      rw [outputLoop, outputLoop]
      have : outputRow db { opt with mend := k } d j box lay x y = outputRow db opt d j box lay x y := rfl
      simp only [ih, this]
  have h5 : ∀ d j box, outputBox db { opt with mend := k } d j box = outputBox db opt d j box := by
    intro d j box
    unfold outputBox
    have a1 : vertFill { opt with mend := k } d box j.lines.length = vertFill opt d box j.lines.length := rfl
    have a2 : horizFill { opt with mend := k } d box j.maxline = horizFill opt d box j.maxline := rfl
    have a3 : indentSpc { opt with mend := k } d j.indent = indentSpc opt d j.indent := rfl
    simp only [h4, a1, a2, a3]
  have h6 : ∀ d j, handleGenerateBox db { opt with mend := k } d j fuel = handleGenerateBox db opt d j fuel := by
    intro d j; unfold handleGenerateBox; simp only [h5]
  unfold drawOnce
  simp only [h1, h2, h3, h6]

/-- the program without mending and removing draws once -/
theorem run_draw (s : Setup) (opt : Opt) (hm : opt.mend = 0) (hr : opt.r = false) (d0 : Design) (ds : List Design) (n : Nat) (color : Bool) :
    (runProgram s opt (d0 :: ds) (n + 1)).map (fun r => (do let ev ← r; renderEvents color ev : Res Str)) =
      (drawOnce s.db opt (prepareDesign opt d0) (s.rules 0) s.junk s.pieces s.fuel).map
        (fun r => (do let out ← r; renderBox color out : Res Str)) := by
  rw [← drawOnce_mend s.db opt (-1)]
  unfold runProgram
  simp only [List.getElem?_cons_zero, List.set_cons_zero]
  generalize hd : prepareDesign opt d0 = d
  unfold mainLoop mainPhase drawOnce handleInput
  have ho : { opt with r := if opt.mend = 1 then false else opt.r, mend := opt.mend - 1 } = { opt with mend := -1 } := by
    rw [hm]; simp [hr]
  have hro : ({ opt with mend := -1 } : Opt).r = false := hr
  have hmo : ({ opt with mend := -1 } : Opt).mend = -1 := rfl
  simp only [ho, List.getElem?_cons_zero, List.set_cons_zero]
  generalize ({ opt with mend := -1 } : Opt) = o at hro hmo ⊢
  rw [if_pos (by rw [hm]; decide)]
  cases h1 : readAllInput s.db o s.junk s.pieces with
  | fail k => simp
  | ub => simp
  | ok raw =>
    simp only [Res.ok_bind]
    cases h2 : analyzeInput s.db o d (s.rules 0) raw with
    | fail k => simp [h2]
    | ub => simp [h2]
    | ok i =>
      have h2' : analyzeInput s.db o { d with minwidth := d.minwidth, minheight := d.minheight } (s.rules 0) raw = .ok i := h2
      simp only [h2', Res.ok_bind]
      by_cases hl : i.lines = []
      · rw [if_pos hl, if_pos hl]
        rfl
      · rw [if_neg hl, if_neg hl, if_neg (by rw [hm]; simp [hr])]
        show _ = Option.map _ (handleGenerateBox s.db o (adjustSizeAndPadding o { d with minwidth := d.minwidth, minheight := d.minheight } i) i s.fuel)
        generalize adjustSizeAndPadding o { d with minwidth := d.minwidth, minheight := d.minheight } i = d2
        cases h3 : handleGenerateBox s.db o d2 i s.fuel with
        | none => rfl
        | some r =>
          cases r with
          | fail k => rfl
          | ub => rfl
          | ok out =>
            simp only [Option.map_some, Res.ok_bind]
            rw [if_neg (by omega)]
            simp only [Option.map_some, Res.ok_bind, List.cons_append, List.nil_append, renderEvents, Option.some.injEq]
            cases renderBox color out <;> simp

theorem detectRound_length {D : Type} (score : D → Res (Nat × D)) (viable : D → Res Bool) : ∀ (ds : List D) (i : Nat) (best : Option Nat × Nat)
    (q : (Option Nat × Nat) × List D), detectRound score viable ds i best = .ok q → q.2.length = ds.length := by
  intro ds
  induction ds with
  | nil => intro i best q h; simp only [detectRound, Res.ok.injEq] at h; subst h; rfl
  | cons d r ih =>
    intro i best q h
    simp only [detectRound, Res.bind_eq_ok] at h
    obtain ⟨v, -, h⟩ := h
    split at h
    · simp only [Res.bind_eq_ok, Res.ok.injEq] at h
      obtain ⟨_, -, rest, hr, rfl⟩ := h
      simp [ih _ _ _ hr]
    · simp only [Res.bind_eq_ok, Res.ok.injEq] at h
      obtain ⟨rest, hr, rfl⟩ := h
      simp [ih _ _ _ hr]

theorem detectRounds_length {D : Type} (score : CompType → D → Res (Nat × D)) (viable : CompType → D → Res Bool) : ∀ (cs : List CompType)
    (ds : List D) (best : Option Nat × Nat) (q : (Option Nat × Nat) × List D), detectRounds score viable cs ds best = .ok q →
    q.2.length = ds.length := by
  intro cs
  induction cs with
  | nil => intro ds best q h; simp only [detectRounds, Res.ok.injEq] at h; subst h; rfl
  | cons c r ih =>
    intro ds best q h
    simp only [detectRounds, Res.bind_eq_ok] at h
    obtain ⟨q', h1, h⟩ := h
    have := detectRound_length _ _ _ _ _ _ h1
    split at h
    · simp only [Res.ok.injEq] at h; subst h; exact this
    · rw [ih _ _ _ h, this]

theorem detectIfNeeded_length {db : CharDb} {ds ds' : List Design} {lines : List Line} {chosen : Option Nat} {k : Nat}
    (h : detectDesignIfNeeded db ds lines chosen = .ok (k, ds')) : ds'.length = ds.length := by
  unfold detectDesignIfNeeded at h
  split at h
  · simp only [Res.ok.injEq, Prod.mk.injEq] at h; rw [h.2]
  · simp only [Res.bind_eq_ok] at h
    obtain ⟨q, hq, h⟩ := h
    split at h
    · simp only [Res.ok.injEq, Prod.mk.injEq] at h
      obtain ⟨-, rfl⟩ := h
      unfold autodetectDesign at hq
      simp only [Res.bind_eq_ok, Res.ok.injEq] at hq
      obtain ⟨mono, -, q', hq', rfl⟩ := hq
      exact detectRounds_length _ _ _ _ _ _ hq'
    · simp at h

theorem readLines_count {db : CharDb} {opt : Opt} {junk : Nat} : ∀ (pieces : List Str) (ls : List Line),
    readLines db opt junk pieces = .ok ls → ls.length = pieces.length := by
  intro pieces
  induction pieces with
  | nil => intro ls h; simp only [readLines, Res.ok.injEq] at h; subst h; rfl
  | cons s r ih =>
    intro ls h
    simp only [readLines, Res.bind_eq_ok, Res.ok.injEq] at h
    obtain ⟨l, -, ls', h2, rfl⟩ := h
    simp [ih _ h2]

theorem readAll_count {db : CharDb} {opt : Opt} {junk : Nat} {pieces : List Str} {i : Input} (h : readAllInput db opt junk pieces = .ok i) :
    i.lines.length = pieces.length := by
  unfold readAllInput at h
  simp only [Res.bind_eq_ok, Res.ok.injEq] at h
  obtain ⟨ls, h1, rfl⟩ := h
  exact readLines_count _ _ h1

theorem analyze_removing {db : CharDb} {opt : Opt} (hr : opt.r = true) {d : Design} {rules : List Subst} {i j : Input}
    (h : analyzeInput db opt d rules i = .ok j) : j.lines = i.lines := by
  unfold analyzeInput at h
  simp only [Res.bind_eq_ok, hr] at h
  obtain ⟨m, -, h⟩ := h
  split at h
  · simp only [Res.ok.injEq] at h; subst h; rfl
  · simp only [Bool.true_eq_false, and_false, if_false, Res.bind_eq_ok, Res.ok.injEq] at h
    obtain ⟨n, -, j', rfl, rfl⟩ := h
    rfl

end Boxes
