import Verif.Lemmas.Program
import Verif.Spec.Sample

/-!
# Properties of the main loop: C45
-/
namespace Boxes
open Spec ShapeName
set_option linter.unusedSimpArgs false

/-- C45: without mending, the input is read once, and then one box is drawn or one removed (unless there is no input). -/
theorem C45_plain (s : Setup) (opt : Opt) (hm : opt.mend = 0) (ds : List Design) (n : Nat) (ev : List Event)
    (h : runProgram s opt ds (n + 1) = some (.ok ev)) :
    ev = [.read] ∨ (opt.r = true ∧ ∃ out, ev = [.read, .removed out]) ∨ (opt.r = false ∧ ∃ out, ev = [.read, .drawn out]) := by
  unfold runProgram at h
  split at h
  · simp at h
  simp only at h
  unfold mainLoop at h
  split at h
  · simp at h
  · simp at h
  · simp at h
  rename_i done w' ev1 hph
  have hmend := mainPhase_mend hph
  simp only [hm] at hmend
  rw [if_neg (by rw [hmend]; omega)] at h
  simp only [Option.some.injEq, Res.ok.injEq] at h
  subst h
  obtain ⟨d0, i, e1, _, h2, h3⟩ := mainPhase_spec hph
  simp only [hm] at h2 h3
  have he : e1 = [.read] := by
    rcases h2 with ⟨_, h, _⟩ | ⟨h, _⟩
    · exact h
    · omega
  subst he
  rcases h3 with ⟨_, _, h⟩ | ⟨_, _, hr, out, h, _⟩ | ⟨_, _, hr, ds, k, d', j, out, h, _⟩
  · exact .inl h
  · exact .inr (.inr ⟨by simpa using hr, out, h⟩)
  · exact .inr (.inl ⟨by simpa using hr, out, h⟩)

/-- C45: two rounds of the loop are enough for mending, one is for the rest: more make no difference. -/
theorem C45_rounds (s : Setup) (opt : Opt) (hm : opt.mend ≤ 2) (ds : List Design) (n : Nat) :
    runProgram s opt ds (n + 2) = runProgram s opt ds 2 ∧ (opt.mend ≤ 1 → runProgram s opt ds (n + 1) = runProgram s opt ds 1) := by
  have step : ∀ (sw sh : Nat) (w : World) (n : Nat), w.opt.mend ≤ 1 →
      mainLoop s sw sh (n + 1) w = mainLoop s sw sh 1 w := by
    intro sw sh w n hw
    unfold mainLoop
    split
    · rfl
    · rfl
    · rfl
    · rename_i done w' ev hph
      have := mainPhase_mend hph
      rw [if_neg (by omega), if_neg (by omega)]
  have step2 : ∀ (sw sh : Nat) (w : World) (n : Nat), w.opt.mend ≤ 2 →
      mainLoop s sw sh (n + 2) w = mainLoop s sw sh 2 w := by
    intro sw sh w n hw
    unfold mainLoop
    split
    · rfl
    · rfl
    · rfl
    · rename_i done w' ev hph
      have := mainPhase_mend hph
      rw [step sw sh w' n (by omega)]
  unfold runProgram
  split
  · exact ⟨rfl, fun _ => rfl⟩
  · exact ⟨step2 _ _ _ n hm, fun h => step _ _ _ n h⟩

/-- C45: while mending, the input is read once; the box is removed without printing anything; what remains is analysed again and a box
is drawn around it, with the minimum size that the design had before (requested size included), the options being the same except for
the default of blank-line removal.  If nothing is left, nothing is drawn. -/
theorem C45_mend (s : Setup) (opt : Opt) (hm : opt.mend = 2) (hr : opt.r = true) (ds : List Design) (d0 : Design)
    (hd : ds[0]? = some d0) (n : Nat) (ev : List Event) (h : runProgram s opt ds (n + 2) = some (.ok ev)) :
    let d := prepareDesign opt d0
    let o1 := { opt with mend := 1 }
    let o2 := { opt with mend := 1, killblank := killblankDefault opt.killblank d }
    let o3 := { opt with mend := 0, r := false, killblank := killblankDefault opt.killblank d }
    ∃ raw i, readAllInput s.db o1 s.junk s.pieces = .ok raw ∧ analyzeInput s.db o1 d (s.rules 0) raw = .ok i ∧
      ((i.lines = [] ∧ ev = [.read]) ∨
       (i.lines ≠ [] ∧ ∃ ds' k d' j i', 
          detectDesignIfNeeded s.db (ds.set 0 (adjustSizeAndPadding o1 d i)) i.lines (if s.byUser then some 0 else none) = .ok (k, ds') ∧
          ds'[k]? = some d' ∧ handleRemoveBox s.db o2 d' (s.revRules k) i = .ok (j, []) ∧
          analyzeInput s.db o3 { d' with minwidth := d.minwidth, minheight := d.minheight } (s.rules k) j = .ok i' ∧
          ((i'.lines = [] ∧ ev = [.read, .removed []]) ∨
           (i'.lines ≠ [] ∧ ∃ out, ev = [.read, .removed [], .drawn out] ∧
             handleGenerateBox s.db o3 (adjustSizeAndPadding o3 { d' with minwidth := d.minwidth, minheight := d.minheight } i') i' s.fuel
               = some (.ok out))))) := by
  unfold runProgram at h
  rw [hd] at h
  simp only at h
  have hlt := (List.getElem?_eq_some_iff.1 hd).1
  unfold mainLoop at h
  split at h
  · simp at h
  · simp at h
  · simp at h
  rename_i done w' ev1 hph
  have hmend := mainPhase_mend hph
  simp only [hm] at hmend
  obtain ⟨e0, i, e1, g1, h2, h3⟩ := mainPhase_spec hph
  simp only [List.getElem?_set_self hlt, Option.some.injEq] at g1
  subst g1
  simp only [hm, hr] at h2 h3
  have hfix : (if (2 : Int) = 1 then false else true) = true := rfl
  have hsub : (2 : Int) - 1 = 1 := rfl
  simp only [hsub, List.set_set, if_neg (show ¬ (2 : Int) = 1 by decide)] at h2 h3
  intro d o1 o2 o3
  have ho1 : o1 = { opt with r := true, mend := 1 } := by rw [← hr]
  have hdd : d = { prepareDesign opt d0 with minwidth := (prepareDesign opt d0).minwidth, minheight := (prepareDesign opt d0).minheight } := rfl
  rcases h2 with ⟨_, rfl, raw, hraw, hi⟩ | ⟨h, _⟩
  rotate_left
  · omega
  rw [← ho1] at hraw hi h3
  refine ⟨raw, i, hraw, hi, ?_⟩
  rcases h3 with ⟨hl, rfl, rfl⟩ | ⟨_, _, hf, _⟩ | ⟨hl, rfl, _, ds', k, d', j, out, rfl, hdet, hk, hrm, hw'⟩
  · left
    simp only [Bool.true_eq_false, false_and, if_false, Option.some.injEq, Res.ok.injEq] at h
    exact ⟨hl, h.symm⟩
  · simp at hf
  · right
    refine ⟨hl, ds', k, d', j, ?_⟩
    rw [if_pos ⟨rfl, by omega⟩, Option.map_eq_some_iff] at h
    obtain ⟨r, hr2, h⟩ := h
    simp only [Res.bind_eq_ok, Res.ok.injEq] at h
    obtain ⟨more, rfl, rfl⟩ := h
    have hout : out = [] := by
      unfold handleRemoveBox at hrm
      simp only [Res.bind_eq_ok] at hrm
      obtain ⟨j1, _, k1, _, hx⟩ := hrm
      unfold outputInput at hx
      simp only [Res.bind_eq_ok] at hx
      obtain ⟨ls, _, hx⟩ := hx
      have : (decide ((1 : Int) > 0)) = true := by decide
      rw [this] at hx
      simp only [if_true, Res.ok.injEq, Prod.mk.injEq] at hx
      exact hx.2.symm
    subst hout
    unfold mainLoop at hr2
    split at hr2
    · simp at hr2
    · simp at hr2
    · simp at hr2
    rename_i done2 w2 ev2 hph2
    have hmend2 := mainPhase_mend hph2
    rw [hmend] at hmend2
    rw [if_neg (by omega)] at hr2
    simp only [Option.some.injEq, Res.ok.injEq] at hr2
    subst hr2
    obtain ⟨e0, i', e1, g1, k2, k3⟩ := mainPhase_spec hph2
    subst hw'
    simp only at g1 k2 k3
    rw [hk] at g1
    obtain rfl := Option.some.inj g1
    have h10 : (1 : Int) - 1 = 0 := rfl
    have ho1m : o1.mend = 1 := rfl
    simp only [ho1m, h10, if_true] at k2 k3
    have ho3 : { o1 with killblank := killblankDefault o1.killblank d, r := false, mend := 0 } = o3 := rfl
    rcases k2 with ⟨hne, _⟩ | ⟨_, rfl, hi'⟩
    · exact absurd rfl hne
    refine ⟨i', hdet, hk, ?_, hi', ?_⟩
    · have : o2 = { opt with killblank := killblankDefault opt.killblank d, r := true, mend := 1 } := by rw [← hr]
      rw [this]
      exact hrm
    rcases k3 with ⟨hl2, rfl, rfl⟩ | ⟨hl2, rfl, _, out, rfl, hgen⟩ | ⟨_, _, hf, _⟩
    · exact .inl ⟨hl2, rfl⟩
    · exact .inr ⟨hl2, out, rfl, hgen⟩
    · simp at hf

/-! ## examples and counterexamples -/

/-- what was drawn last, as plain text -/
def lastDrawn (r : Option (Res (List Event))) : Option (List Str) :=
  match r with
  | some (.ok ev) => match ev.getLast? with
    | some (.drawn out) => some (out.map (fun p => p.1.memory))
    | _ => none
  | _ => none

/-- lines of input -/
def typed (l : List String) : List Str := l.map (fun x => lit x ++ [0x0a])

/-- drawing -/
example : lastDrawn (runProgram { db := sampleDb, pieces := typed ["a", "", "b"], byUser := true, fuel := 100 } { mend := 0 } [sampleDesign] 1) =
    (some ["..-=<>=-.", "O| a    )", "||      (", "|| b    )", "||      (", "`'######'"]).map (·.map lit) := by decide +kernel

/-- mending: the right side is straightened; the hypotheses of `C45_mend` are met -/
example : lastDrawn (runProgram { db := sampleDb, pieces := typed ["*****", "*abcd*", "*a  *", "*****"], byUser := true, fuel := 100 }
      { mend := 2, r := true, killblank := 0 } [starDesign] 2) =
    (some ["******", "*abcd*", "*a   *", "******"]).map (·.map lit) := by decide +kernel

/-- C45: a box that is mended without naming the design gets the minimum size of the first design in the configuration instead of that
of its own design: it becomes wider than drawn, or so small that shapes get lost (here the elastic shape left of the top right corner). -/
theorem C45_detected_size_disagrees :
    lastDrawn (runProgram { db := sampleDb, pieces := typed ["*****", "*abcd*", "*a  *", "*****"], byUser := false, fuel := 100 }
        { mend := 2, r := true, killblank := 0 } [sampleDesign, starDesign] 2) =
      (some ["*********", "*abcd   *", "*a      *", "*********"]).map (·.map lit) ∧
    lastDrawn (runProgram { db := sampleDb, pieces := typed ["..-=<>=-.", "O| a    )", "||      (", "`'######'"], byUser := false, fuel := 100 }
        { mend := 2, r := true, killblank := 0 } [starDesign, sampleDesign] 2) =
      (some ["..-=<>.", "O| a  )", "||    (", "`'####'"]).map (·.map lit) := by decide +kernel

/-- C45: the reduction of the padding for a requested size, calculated for the box while it is removed, is kept when it is drawn again:
a box that was drawn with a requested width loses its padding and moves to the right when mended with the same options. -/
theorem C45_padding_disagrees :
    lastDrawn (runProgram { db := sampleDb, pieces := typed ["ab", "c"], byUser := true, fuel := 100 } { mend := 0, reqwidth := 12 }
        [{ starDesign with padding := ⟨0, 2, 0, 2⟩ }] 1) =
      (some ["************", "*  ab      *", "*  c       *", "************"]).map (·.map lit) ∧
    lastDrawn (runProgram { db := sampleDb, pieces := typed ["************", "*  ab      *", "*  c       *", "************"], byUser := true, fuel := 100 }
        { mend := 2, r := true, killblank := 0, reqwidth := 12 } [{ starDesign with padding := ⟨0, 2, 0, 2⟩ }] 2) =
      (some ["  ************", "  *ab        *", "  *c         *", "  ************"]).map (·.map lit) := by decide +kernel

/-- C45: a box whose text contains a blank line grows when it is mended, because trailing blanks are not removed from a blank line
(src/bxstring.c:178, 459). -/
theorem C45_blank_line_disagrees :
    lastDrawn (runProgram { db := sampleDb, pieces := typed ["a", "", "b"], byUser := true, fuel := 100 } { mend := 0 } [sampleDesign] 1) =
      (some ["..-=<>=-.", "O| a    )", "||      (", "|| b    )", "||      (", "`'######'"]).map (·.map lit) ∧
    lastDrawn (runProgram { db := sampleDb, pieces := typed ["..-=<>=-.", "O| a    )", "||      (", "|| b    )", "||      (", "`'######'"], byUser := true, fuel := 100 }
        { mend := 2, r := true, killblank := 0 } [sampleDesign] 2) =
      (some ["..-=-=<>=-.", "O| a      )", "||        (", "|| b      )", "||        (", "`'########'"]).map (·.map lit) := by decide +kernel

end Boxes
