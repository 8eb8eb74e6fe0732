/-!
# Model of `src/unicode.c` and the character level parts of `src/tools.c`

Strings: a NUL-terminated `uint32_t *` is the list of its characters in front of the terminator.
-/
namespace Boxes

/-- A string: code points (`uint32_t *`) or bytes (`char *`), without the terminating NUL. -/
abbrev Str := List Nat

/-- Character classification functions of libunistring, which boxes uses as a black box
(`uc_width`, `uc_is_blank`, `uc_is_cntrl`, and the disjunction of the three white-space predicates used in
src/tools.c:321).  Not modelled further: every theorem ranges over all `CharDb`. -/
structure CharDb where
  /-- `uc_width(c, encoding)`, negative for control characters -/
  width : Nat → Int
  /-- `uc_is_blank(c)` -/
  ucBlank : Nat → Bool
  /-- `uc_is_cntrl(c)` -/
  cntrl : Nat → Bool
  /-- `uc_is_c_whitespace(c) || uc_is_property_white_space(c) || uc_is_property_bidi_whitespace(c)` -/
  white : Nat → Bool

/-- src/unicode.c:39-55 `char_tab`, `char_space`, `char_cr`, `char_newline`, `char_esc` -/
abbrev chTab : Nat := 0x09
@[inherit_doc chTab] abbrev chSpace : Nat := 0x20
@[inherit_doc chTab] abbrev chCr : Nat := 0x0d
@[inherit_doc chTab] abbrev chNl : Nat := 0x0a
@[inherit_doc chTab] abbrev chEsc : Nat := 0x1b

/-- src/unicode.c:96-99 `is_ascii_printable` -/
def isAsciiPrintable (c : Nat) : Bool := 0x20 ≤ c && c < 0x7f

/-- src/unicode.c:103-107 `is_allowed_anywhere` -/
def isAllowedAnywhere (db : CharDb) (c : Nat) : Bool :=
  !db.cntrl c || c == chTab || c == chCr || c == chNl || c == chEsc

/-- src/unicode.c:111-114 `is_allowed_in_shape` -/
def isAllowedInShape (db : CharDb) (c : Nat) : Bool :=
  isAllowedAnywhere db c && c != chCr && c != chNl

/-- src/unicode.c:118-121 `is_allowed_in_sample` -/
def isAllowedInSample (db : CharDb) (c : Nat) : Bool := isAllowedAnywhere db c

/-- src/unicode.c:125-128 `is_allowed_in_filename` (identical: 132-135 `is_allowed_in_kv_string`) -/
def isAllowedInFilename (db : CharDb) (c : Nat) : Bool :=
  isAllowedAnywhere db c && c != chCr && c != chNl && c != chEsc

/-- src/unicode.c:139-142 `is_blank` -/
def isBlank (db : CharDb) (c : Nat) : Bool := c == chTab || db.ucBlank c

/-- src/unicode.c:80-92 `u32_is_blank` -/
def u32IsBlank (db : CharDb) (s : Str) : Bool := s.all (isBlank db)

/-- src/unicode.c:302-314 `u32_nspaces` -/
def nspaces (n : Nat) : Str := List.replicate n chSpace

/-- src/unicode.c:174-200, the loop of `advance_next32`.  First argument: `ansipos`, second: `*invis`.
Result: the remaining string and the final `*invis`.  Reaching the end of the string (`u32_next` returns NULL) is the
`[]` case (lines 201-203). -/
def advLoop : Nat → Nat → Str → Str × Nat
  | _, invis, [] => ([], invis)
  | pos, invis, c :: rest =>
    if pos = 0 ∧ c = chEsc then advLoop 1 (invis + 1) rest
    else if pos = 1 ∧ (c = 0x5b ∨ c = 0x28) then advLoop 2 (invis + 1) rest   -- '[' or '('
    else if pos = 1 ∧ 0x40 ≤ c ∧ c ≤ 0x5f then (rest, invis + 1)
    else if pos = 2 then
      if 0x40 ≤ c ∧ c ≤ 0x7e then (rest, invis + 1) else advLoop 2 (invis + 1) rest
    else (rest, invis)

/-- src/unicode.c:164-205 `advance_next32`: rest of the string after one visible character or one escape sequence,
and the number of invisible characters passed.  (Called by the code only on non-empty strings; on the empty string the
C code leaves `*invis` untouched.) -/
def advanceNext (s : Str) : Str × Nat := advLoop 0 0 s

/-- `puc >= 0x40 && puc <= 0x7e` in src/tools.c:566,581 -/
def isFinalByte (c : Nat) : Bool := 0x40 ≤ c && c ≤ 0x7e

/-- src/tools.c:581: last step of `is_csi_reset`, `default` branch -/
def csiResetEnd : Str → Bool
  | [] => false
  | c :: _ => isFinalByte c

/-- src/tools.c:547-586 `is_csi_reset`, the position-counting loop unrolled. -/
def isCsiReset : Str → Bool
  | e :: o :: p :: rest =>
    if e ≠ chEsc then false
    else if o ≠ 0x5b ∧ o ≠ 0x28 then false
    else if p = 0x30 then csiResetEnd rest
    else if isFinalByte p then true
    else match rest with
      | [] => false
      | q :: rest' =>
        if (p = 0x31 ∧ q = 0x30) ∨ (p = 0x33 ∧ q = 0x39) ∨ (p = 0x34 ∧ q = 0x39) ∨ (p = 0x35 ∧ q = 0x39)
            ∨ (p = 0x37 ∧ q = 0x35)
        then csiResetEnd rest' else false
  | _ => false

end Boxes
