import Verif.Spec.Nested
import Verif.Props.Pipe

/-!
# Lemmas: the rows of a box are plain lines
-/

set_option linter.unusedSimpArgs false

namespace Boxes
open Boxes.Spec ShapeName

theorem onlySpaces_prepared {db : CharDb} (opt : Opt) {d : Design} (h : OnlySpaces db d) : OnlySpaces db (prepareDesign opt d) := by
  obtain ⟨h1, -⟩ := prepareDesign_fields opt d
  unfold OnlySpaces
  rw [h1]; exact h

/-- the last character of a row comes from the right side -/
theorem last_of_side {db : CharDb} (hdb : Sane db) {p e : Str} (hseen : Seen db e) (he : ∀ c ∈ e, db.white c = true ∨ Blank db c → c = 0x20) :
    ∀ c, (dropTrailing db (p ++ e)).getLast? = some c → db.white c = false := by
  intro c hc
  rw [dropTrailing_row db p e (seen_nonblank hseen)] at hc
  obtain ⟨x, z, y, rfl, h2, h3, h4⟩ := dropTrailing_split db (seen_nonblank hseen)
  rw [h4, ← List.append_assoc, List.getLast?_concat] at hc
  obtain rfl := Option.some.inj hc
  cases hw : db.white z with
  | false => rfl
  | true =>
    exfalso
    have := he z (by simp) (.inl hw)
    rw [this] at h2
    exact h2 (.inr hdb.space_blank)

/-- the rows of a box around plain lines are plain lines -/
theorem drawn_plain (db : CharDb) (hdb : Sane db) (d : Design) (hd : Restorable db d) (hsp : OnlySpaces db d)
    {ind lp w : Nat} {vs : List Str} {out : List (Bxs × Str)}
    (hrows : DrawnRows db d ind (fun v => spaces lp ++ v ++ spaces (w - columns db v)) vs out)
    (hvs : ∀ v ∈ vs, ∀ c ∈ v, CleanChar db c ∧ (Blank db c → c = 0x20)) (hshort : ∀ p ∈ out, p.1.memory.length < 16360) :
    ∀ p ∈ out, PlainLine db p.1.memory ∧ p.1.memory ≠ [] := by
  intro p hp
  have hrec := hd.recognisable
  obtain ⟨h1, h2⟩ := drawn_clean hdb hd hrows (fun v hv c hc => (hvs v hv c hc).1)
  have hcase : (∃ top y, y < (d.shape (if top then NE else SE)).height ∧ EdgeRow db d top ind y p.1.memory) ∨
      ∃ v ∈ vs, BodyRow db d ind (spaces lp ++ v ++ spaces (w - columns db v)) p.1.memory := by
    obtain ⟨x, hx⟩ := List.getElem?_of_mem hp
    have hlt := (List.getElem?_eq_some_iff.1 hx).1
    have hcount := hrows.count
    by_cases g1 : x < (d.shape NE).height
    · exact .inl ⟨true, x, by simpa using g1, hrows.top x p g1 hx⟩
    · by_cases g2 : x < (d.shape NE).height + vs.length
      · have hk : x - (d.shape NE).height < vs.length := by omega
        exact .inr ⟨_, List.getElem_mem hk, hrows.body _ p _ (List.getElem?_eq_getElem hk) (by rw [← hx]; congr 1; omega)⟩
      · exact .inl ⟨false, x - ((d.shape NE).height + vs.length), by simp; omega, hrows.bottom _ p (by omega) (by rw [← hx]; congr 1; omega)⟩
  have hblank : ∀ c ∈ p.1.memory, Blank db c → c = 0x20 := by
    have hsh : ∀ n, Present (d.shape n) → ∀ b ∈ (d.shape n).lines, ∀ c ∈ b.memory, Blank db c → c = 0x20 :=
      fun n hn b hb c hc hbl => hsp n hn b hb c hc (.inr hbl)
    rcases hcase with ⟨top, y, -, h⟩ | ⟨v, hv, h⟩
    · exact edgeRow_all (P := fun c => Blank db c → c = 0x20) hrec.ready.good (fun _ => rfl) hsh h
    · refine bodyRow_all (P := fun c => Blank db c → c = 0x20) (fun _ => rfl) hsh ?_ h
      intro c hc
      simp only [List.mem_append] at hc
      rcases hc with (hc | hc) | hc
      · exact spaces_all (P := fun c => Blank db c → c = 0x20) (fun _ => rfl) _ c hc
      · exact (hvs v hv c hc).2
      · exact spaces_all (P := fun c => Blank db c → c = 0x20) (fun _ => rfl) _ c hc
  refine ⟨⟨fun c hc => ?_, .inr (h2 p hp).1, ?_, hshort p hp⟩, ?_⟩
  · obtain ⟨g1, g2, -, -, g5, g6⟩ := h1 p hp c hc
    exact ⟨g1, g5, g6, g2, hblank c hc⟩
  · rcases hcase with ⟨top, y, hy, a, b, c, -, -, -, e⟩ | ⟨v, hv, n, hn, n', hn', hpn, hpn', b, hb, b', hb', e⟩
    · rw [e]
      have hmem : (if top then NE else SE) ∈ [NW, NE, SW, SE] := by cases top <;> simp
      have hpr : Present (d.shape (if top then NE else SE)) := hrec.ready.good.corner _ (by cases top <;> simp)
      have hlt : y < (d.shape (if top then NE else SE)).lines.length := by rw [(hrec.ready.good.shapes _ hpr).height]; exact hy
      have hline : lineText (d.shape (if top then NE else SE)) y = ((d.shape (if top then NE else SE)).lines[y]).memory := by
        simp [lineText, List.getElem?_eq_getElem hlt]
      rw [hline]
      exact last_of_side hdb (hrec.corners _ hmem _ (List.getElem_mem hlt)) (hsp _ hpr _ (List.getElem_mem hlt))
    · rw [e]
      exact last_of_side hdb (hrec.east n' hn' hpn' b' hb') (hsp n' hpn' b' hb')
  · obtain ⟨c, hc, -⟩ := (h2 p hp).1
    exact List.ne_nil_of_mem hc

end Boxes
