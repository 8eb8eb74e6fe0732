import Verif.Spec.Rules

/-!
# Replacement by regular expression (C73)
-/
namespace Boxes
open Spec

theorem regexLoop_succ (call : Nat → SubstCall) (fuel n : Nat) : regexLoop call (fuel + 1) n =
    if (call n).rc ≠ pcre2NoMemory ∨ n ≥ (call n).outlen then some ((call n).rc, (call n).written) else regexLoop call fuel (call n).outlen := rfl

/-- C73: the replacement gives the complete result, however long it is, after at most two calls of the library; it fails if and only if the
library reports an error. -/
theorem C73_replaced (call : Nat → SubstCall) (result : Option Str) (h : Pcre2 call result) (inputLen fuel : Nat) :
    u32RegexReplace call inputLen (fuel + 2) = some result := by
  unfold u32RegexReplace
  simp only
  cases result with
  | none =>
    obtain ⟨h1, h2⟩ := h (if inputLen < 8 then 16 else inputLen * 2)
    rw [regexLoop_succ]
    rw [if_pos (.inl h2)]
    simp [h1]
  | some t =>
    generalize hn : (if inputLen < 8 then 16 else inputLen * 2) = n
    have h0 := h n
    rw [regexLoop_succ]
    by_cases hlen : t.length + 1 ≤ n
    · rw [if_pos hlen] at h0
      obtain ⟨h1, h2, h3⟩ := h0
      rw [if_pos (.inl (by unfold pcre2NoMemory; omega))]
      simp only [Option.map_some]
      rw [if_neg (by omega), h2]
    · rw [if_neg hlen] at h0
      obtain ⟨h1, h2⟩ := h0
      have hc : ¬ ((call n).rc ≠ pcre2NoMemory ∨ n ≥ (call n).outlen) := by
        rw [h2, h1]
        rintro (h | h)
        · exact h rfl
        · omega
      rw [if_neg hc, h2]
      have h3 := h (t.length + 1)
      rw [if_pos (Nat.le_refl _)] at h3
      obtain ⟨h4, h5, h6⟩ := h3
      rw [regexLoop_succ]
      rw [if_pos (.inl (by unfold pcre2NoMemory; omega))]
      simp only [Option.map_some]
      rw [if_neg (by omega), h5]

/-- the buffer of the first call: at least 16 characters and at least twice the length of the text -/
theorem C73_one_call (call : Nat → SubstCall) (t : Str) (h : Pcre2 call (some t)) (inputLen : Nat) (ht : t.length < 2 * inputLen ∨ t.length < 16 ∧ inputLen < 8) :
    u32RegexReplace call inputLen 1 = some (some t) := by
  unfold u32RegexReplace
  simp only
  have h0 := h (if inputLen < 8 then 16 else inputLen * 2)
  rw [if_pos (by split <;> omega)] at h0
  obtain ⟨h1, h2, h3⟩ := h0
  rw [show (1 : Nat) = 0 + 1 from rfl, regexLoop_succ]
  rw [if_pos (.inl (by unfold pcre2NoMemory; omega))]
  simp only [Option.map_some]
  rw [if_neg (by omega), h2]

/-- a longer result needs a second call: the first one only tells the size that is needed -/
theorem C73_second_call (call : Nat → SubstCall) (t : Str) (h : Pcre2 call (some t)) (inputLen : Nat) (ht : 2 * inputLen ≤ t.length ∧ (16 ≤ t.length ∨ 8 ≤ inputLen)) :
    u32RegexReplace call inputLen 1 = none := by
  unfold u32RegexReplace
  simp only
  generalize hn : (if inputLen < 8 then 16 else inputLen * 2) = n
  have h0 := h n
  rw [if_neg (by subst hn; split <;> omega)] at h0
  obtain ⟨h1, h2⟩ := h0
  have hc : ¬ ((call n).rc ≠ pcre2NoMemory ∨ n ≥ (call n).outlen) := by
    rw [h2, h1]
    rintro (h | h)
    · exact h rfl
    · subst hn; split at h <;> omega
  rw [show (1 : Nat) = 0 + 1 from rfl, regexLoop_succ, if_neg hc]
  rfl

/-- a library that always gives the same text -/
def constantPcre2 (t : Str) (n : Nat) : SubstCall :=
  if t.length + 1 ≤ n then ⟨1, t.length, t⟩ else ⟨-48, t.length + 1, []⟩

theorem constant_conforms (t : Str) : Pcre2 (constantPcre2 t) (some t) := by
  intro n
  unfold constantPcre2
  split
  · simp
  · simp

example : u32RegexReplace (constantPcre2 (List.replicate 100 0x61)) 3 2 = some (some (List.replicate 100 0x61)) :=
  C73_replaced _ _ (constant_conforms _) 3 0
example : u32RegexReplace (constantPcre2 (List.replicate 100 0x61)) 3 1 = none :=
  C73_second_call _ _ (constant_conforms _) 3 (by simp)

end Boxes
