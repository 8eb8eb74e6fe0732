import Verif.Spec.Insert
import Verif.Model.Tools

/-!
# C79: inserting blanks into a string
-/
namespace Boxes
open Spec

theorem strlen_holds {b : Block} {s : Str} (h : HoldsStr b s) : b.strlen = some s.length := by
  obtain ⟨r, rfl, h0⟩ := h
  induction s with
  | nil => simp [Block.strlen]
  | cons c s ih =>
    simp only [List.mem_cons, not_or] at h0
    simp only [List.map_cons, List.cons_append, Block.strlen, if_neg (fun e : c = 0 => h0.1 e.symm), ih h0.2, Option.map_some, List.length_cons]

theorem holds_of_strlen {b : Block} {n : Nat} (h : b.strlen = some n) : ∃ s, HoldsStr b s ∧ s.length = n := by
  induction b generalizing n with
  | nil => simp [Block.strlen] at h
  | cons c b ih =>
    cases c with
    | none => simp [Block.strlen] at h
    | some c =>
      simp only [Block.strlen] at h
      split at h
      · rename_i e
        simp only [Option.some.injEq] at h
        exact ⟨[], ⟨b, by simp [e], by simp⟩, by simpa using h⟩
      · rename_i e
        simp only [Option.map_eq_some_iff] at h
        obtain ⟨m, hm, rfl⟩ := h
        obtain ⟨s, ⟨r, hr, h0⟩, hl⟩ := ih hm
        exact ⟨c :: s, ⟨r, by simp [hr], by simpa using ⟨fun x => e x.symm, h0⟩⟩, by simp [hl]⟩

/-- C79: what the call leaves in memory.  The characters are right; the place behind them, where the terminator belongs, is whatever
was there before (nothing, if the block was not larger than the result needs). -/
theorem C79_contents_partial {b : Block} {s : Str} (h : HoldsStr b s) (idx n : Nat) (hn : 0 < n) :
    insertSpaceAt b idx n = some ((withBlanks s idx n).map some ++ [b[s.length + n]?.getD none]) := by
  have hl := strlen_holds h
  obtain ⟨r, rfl, h0⟩ := h
  unfold insertSpaceAt
  rw [if_neg (by omega), hl]
  simp only [Option.bind_eq_bind, Option.bind_some]
  generalize hx : (if idx > s.length then s.length else idx) = x
  have hx' : x = min idx s.length := by rw [← hx]; split <;> omega
  have hxl : x ≤ s.length := by omega
  have hlast : ∃ z, Block.realloc (s.map some ++ some 0 :: r) (s.length + 1 + n) = s.map some ++ some 0 :: z ∧ z.length = n ∧
      z[n - 1]? = some ((s.map some ++ some 0 :: r : Block)[s.length + n]?.getD none) := by
    refine ⟨r.take n ++ List.replicate (n - r.length) none, ?_, by simp; omega, ?_⟩
    · unfold Block.realloc
      rw [List.take_append, List.take_of_length_le (by simp; omega)]
      simp only [List.length_map, List.length_append, List.length_cons]
      rw [show s.length + 1 + n - s.length = n + 1 by omega, List.take_succ_cons,
        show s.length + 1 + n - (s.length + (r.length + 1)) = n - r.length by omega]
      simp
    · have e0 : (s.map some ++ some 0 :: r : Block)[s.length + n]? = (some 0 :: r : Block)[s.length + n - s.length]? := by
        rw [List.getElem?_append_right (by simp), List.length_map]
      rw [e0, show s.length + n - s.length = (n - 1) + 1 by omega, List.getElem?_cons_succ]
      by_cases hr : n ≤ r.length
      · rw [List.getElem?_append_left (by simp; omega), List.getElem?_take, if_pos (by omega), List.getElem?_eq_getElem (by omega)]
        rfl
      · rw [List.getElem?_append_right (by simp; omega), List.getElem?_replicate, if_pos (by simp; omega), List.getElem?_eq_none (by omega)]
        rfl
  obtain ⟨z, hz, hzl, hze⟩ := hlast
  rw [hz]
  have hzd : z = z.take (n - 1) ++ [(s.map some ++ some 0 :: r : Block)[s.length + n]?.getD none] := by
    conv => lhs; rw [← List.take_append_drop (n - 1) z]
    congr 1
    rw [List.getElem?_eq_some_iff] at hze
    obtain ⟨hlt, he⟩ := hze
    rw [List.drop_eq_getElem_cons hlt, he, List.drop_of_length_le (by omega)]
  generalize hlv : (s.map some ++ some 0 :: r : Block)[s.length + n]?.getD none = lastv at hzd ⊢
  have hT : withBlanks s idx n = s.take x ++ List.replicate n 0x20 ++ s.drop x := by
    unfold withBlanks
    by_cases hi : idx ≤ s.length
    · rw [show x = idx by omega]
    · rw [List.take_of_length_le (by omega), List.drop_of_length_le (by omega), show x = s.length by omega]
      simp
  rw [hT]
  unfold Block.move
  rw [if_pos (by simp; omega)]
  simp only [Option.bind_some]
  have e1 : ((s.map some ++ some 0 :: z : Block).drop x).take (s.length - x) = (s.drop x).map some := by
    rw [List.drop_append_of_le_length (by simpa using hxl), List.take_append_of_le_length (by simp), ← List.map_drop,
      List.take_of_length_le (by simp)]
  have e2 : (s.map some ++ some 0 :: z : Block).drop (x + n + (s.length - x)) = [lastv] := by
    rw [show x + n + (s.length - x) = (s.map (some : Nat → Option Nat)).length + (1 + (n - 1)) by simp; omega, ← List.drop_drop,
      List.drop_left, ← List.drop_drop]
    simp only [List.drop_succ_cons, List.drop_zero]
    have hq : (z.take (n - 1)).length = n - 1 := by simp; omega
    generalize z.take (n - 1) = q at hzd hq
    rw [hzd, ← hq, List.drop_left]
  rw [e1, e2]
  unfold Block.set
  have hA : ((s.map some ++ some 0 :: z : Block).take (x + n)).length = x + n := by simp; omega
  rw [if_pos (by simp; omega)]
  congr 1
  have e3 : (List.take (x + n) (s.map some ++ some 0 :: z : Block) ++ (s.drop x).map some ++ [lastv]).take x = (s.take x).map some := by
    rw [List.append_assoc, List.take_append_of_le_length (by omega), List.take_take, Nat.min_eq_left (by omega),
      List.take_append_of_le_length (by simpa using hxl), List.map_take]
  have e4 : (List.take (x + n) (s.map some ++ some 0 :: z : Block) ++ (s.drop x).map some ++ [lastv]).drop (x + n) =
      (s.drop x).map some ++ [lastv] := by
    rw [List.append_assoc]
    conv => lhs; arg 1; rw [← hA]
    rw [List.drop_left]
  rw [e3, e4]
  simp [chSpace, List.append_assoc]

/-- C79: nothing happens if no blank is to be inserted. -/
theorem C79_none (b : Block) (idx : Nat) : insertSpaceAt b idx 0 = some b := rfl

/-- C79: the result is a string, and then the right one, exactly if there happened to be a terminator at the place behind it already. -/
theorem C79_string_partial {b : Block} {s : Str} (h : HoldsStr b s) (idx n : Nat) (hn : 0 < n) :
    ∃ b', insertSpaceAt b idx n = some b' ∧ (b[s.length + n]? = some (some 0) → HoldsStr b' (withBlanks s idx n)) ∧
      ∀ t, HoldsStr b' t → t = withBlanks s idx n ∧ b[s.length + n]? = some (some 0) := by
  refine ⟨_, C79_contents_partial h idx n hn, ?_, ?_⟩
  · intro h1
    refine ⟨[], by rw [h1]; rfl, ?_⟩
    obtain ⟨r, -, h0⟩ := h
    intro hm
    simp only [withBlanks, List.mem_append, List.mem_replicate] at hm
    rcases hm with (hm | hm) | hm
    · exact h0 (List.mem_of_mem_take hm)
    · omega
    · exact h0 (List.mem_of_mem_drop hm)
  · have h00 : 0 ∉ withBlanks s idx n := by
      obtain ⟨r, -, h0⟩ := h
      intro hm
      simp only [withBlanks, List.mem_append, List.mem_replicate] at hm
      rcases hm with (hm | hm) | hm
      · exact h0 (List.mem_of_mem_take hm)
      · omega
      · exact h0 (List.mem_of_mem_drop hm)
    generalize withBlanks s idx n = w at h00
    rintro t ⟨r', e, ht⟩
    have key : ∀ (w t : Str) (z : Option Nat) (r' : Block), 0 ∉ w → 0 ∉ t → w.map some ++ [z] = t.map some ++ some 0 :: r' → t = w ∧ z = some 0 := by
      intro w
      induction w with
      | nil =>
        intro t z r' _ _ e
        cases t with
        | nil => simp at e; exact ⟨rfl, e.1⟩
        | cons c t => simp at e
      | cons d w ih =>
        intro t z r' h1 h2 e
        simp only [List.mem_cons, not_or] at h1
        cases t with
        | nil => simp at e; exact absurd e.1.symm h1.1
        | cons c t =>
          simp only [List.mem_cons, not_or] at h2
          simp only [List.map_cons, List.cons_append, List.cons.injEq, Option.some.injEq] at e
          obtain ⟨rfl, e⟩ := e
          obtain ⟨rfl, hz⟩ := ih t z r' h1.2 h2.2 e
          exact ⟨rfl, hz⟩
    obtain ⟨e1, e2⟩ := key w t _ r' h00 ht e
    refine ⟨e1, ?_⟩
    cases hb : b[s.length + n]? with
    | none => rw [hb] at e2; simp at e2
    | some y => rw [hb] at e2; simpa using e2

/-- C79: in a block that is just large enough for the string, as `u32_strdup` allocates it, the result has no terminator: whatever string
and whatever position, reading the result as a string leaves what was written. -/
theorem C79_unterminated_disagrees (s : Str) (hs : 0 ∉ s) (idx n : Nat) (hn : 0 < n) :
    ∃ b', insertSpaceAt (s.map some ++ [some 0]) idx n = some b' ∧ b'.strlen = none := by
  have h : HoldsStr (s.map some ++ [some 0]) s := ⟨[], rfl, hs⟩
  obtain ⟨b', h1, -, h3⟩ := C79_string_partial h idx n hn
  refine ⟨b', h1, ?_⟩
  cases hb : b'.strlen with
  | none => rfl
  | some k =>
    obtain ⟨t, ht, -⟩ := holds_of_strlen hb
    have := (h3 t ht).2
    rw [List.getElem?_eq_none (by simp; omega)] at this
    simp at this

/-- C79: moving within a block: it must lie within the block; the places of the target are those of the source before, the others are as they were. -/
theorem C79_move (b : Block) (i j n : Nat) : (b.move i j n = none ↔ b.length < i + n ∨ b.length < j + n) ∧ ∀ r, b.move i j n = some r →
    r.length = b.length ∧ ∀ k : Nat, r[k]? = if i ≤ k ∧ k < i + n then b[j + (k - i)]? else b[k]? := by
  unfold Block.move
  constructor
  · split <;> simp <;> omega
  · intro r hr
    split at hr
    · rename_i h
      obtain rfl := Option.some.inj hr
      refine ⟨by simp; omega, ?_⟩
      intro k
      rw [List.append_assoc, List.getElem?_append, List.getElem?_append]
      simp only [List.length_take, List.length_drop, List.getElem?_take, List.getElem?_drop]
      by_cases h1 : k < i
      · rw [if_pos (by omega), if_pos h1, if_neg (by omega)]
      · rw [if_neg (by omega)]
        by_cases h2 : k < i + n
        · rw [if_pos (by omega), if_pos (by omega), if_pos ⟨by omega, h2⟩]; congr 1; omega
        · rw [if_neg (by omega), if_neg (by omega)]; congr 1; omega
    · simp at hr

/-- C79: setting places of a block -/
theorem C79_set (b : Block) (i c n : Nat) : (b.set i c n = none ↔ b.length < i + n) ∧ ∀ r, b.set i c n = some r →
    r.length = b.length ∧ ∀ k : Nat, r[k]? = if i ≤ k ∧ k < i + n then some (some c) else b[k]? := by
  unfold Block.set
  constructor
  · split <;> simp <;> omega
  · intro r hr
    split at hr
    · rename_i h
      obtain rfl := Option.some.inj hr
      refine ⟨by simp; omega, ?_⟩
      intro k
      rw [List.append_assoc, List.getElem?_append, List.getElem?_append]
      simp only [List.length_take, List.length_replicate, List.getElem?_take, List.getElem?_drop, List.getElem?_replicate]
      by_cases h1 : k < i
      · rw [if_pos (by omega), if_pos h1, if_neg (by omega)]
      · rw [if_neg (by omega)]
        by_cases h2 : k < i + n
        · rw [if_pos (by omega), if_pos (by omega), if_pos ⟨by omega, h2⟩]
        · rw [if_neg (by omega), if_neg (by omega)]; congr 1; omega
    · simp at hr

/-! ## Examples -/

example : HoldsStr ((lit "abc").map some ++ [some 0, none, some 0]) (lit "abc") := ⟨[none, some 0], rfl, by decide⟩
example : insertSpaceAt ((lit "abc").map some ++ [some 0, none, some 0]) 1 2 = some ((lit "a  bc").map some ++ [some 0]) := by decide
example : insertSpaceAt ((lit "abc").map some ++ [some 0]) 99 2 = some ((lit "abc  ").map some ++ [none]) := by decide

end Boxes
