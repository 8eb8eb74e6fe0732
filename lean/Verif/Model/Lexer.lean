import Verif.Model.Parse

/-!
# Model of the string tokens in `src/lexer.l`, and of the escaping in `src/list.c`

The scanner works on bytes in UTF-8.  String delimiters are ASCII characters, which do not occur inside of the encoding of
another character, so that the model works on characters.  An escape character that is not ASCII is not modelled: a delimiter
specification with such a character is more than two bytes long.
-/
namespace Boxes

/-- `'\\'` -/
def chBackslash : Nat := 0x5c
/-- `'"'` -/
def chQuote : Nat := 0x22

/-- src/lexer.l:39 `LEX_SDELIM` -/
def lexSdelim : Str := lit "\"~'`!@%&*=:;<>?/|.\\"

/-- the two characters in `pass_to_flex` (src/lexer.l:24-32) -/
structure Delims where
  sesc : Nat
  sdel : Nat
deriving DecidableEq, Repr

/-- src/lexer.l:494-514 `change_string_delimiters`; `none` is the error return.  `strlen` is in bytes: a character that is not
ASCII makes the specification longer than two bytes, or is itself two bytes of which the second is no delimiter. -/
def changeStringDelimiters (spec : Str) : Option Delims :=
  match spec with
  | [e, d] =>
    if e ≥ 0x80 ∨ d ≥ 0x80 then none
    else if e = d then none
    else if !lexSdelim.contains d then none
    else some ⟨e, d⟩
  | _ => none

/-- src/lexer.l:315 and 329: the delimiters at the beginning and at the end of every design; `change_string_delimiters` accepts them -/
def defaultDelims : Delims := ⟨chBackslash, chQuote⟩

/-- Outcome of the rule for strings: the rule is rejected (another one applies), the string is not terminated, or the text of the
string and what is left of the line -/
inductive StrToken where
  | reject
  | unterminated
  | token (text rest : Str)
deriving DecidableEq, Repr

/-- src/lexer.l:171-195: the loop over the text behind the opening delimiter.  `done` is the text between `str` and `p`.
The result is the text of the string and `qcnt`. -/
def stringLoop (dl : Delims) : Str → Str → Nat → Option (Str × Nat)
  | [], _, _ => none
  | c :: rest, done, qcnt =>
    if c = dl.sesc then
      match rest with
      | [] => none
      | d :: rest' => stringLoop dl rest' (done ++ [d]) (qcnt + 1)
    else if c = dl.sdel then some (done, qcnt)
    else stringLoop dl rest (done ++ [c]) qcnt

/-- src/lexer.l:154-201: the rule for strings; `line` is the text from the current position to the end of the line (`.*$`).
`yyless` gives back everything but the first `(p - str) + 2 + qcnt` characters. -/
def stringToken (dl : Delims) (line : Str) : StrToken :=
  match line with
  | [] => .reject
  | c :: rest =>
    if c ≠ dl.sdel then .reject
    else
      match stringLoop dl rest [] 0 with
      | none => .unterminated
      | some (text, qcnt) => .token text (line.drop (text.length + 2 + qcnt))

/-- src/list.c:175-186: the loop of `escape`, from `orgIdx` on.  `(is_char_at ... || is_char_at ...) && bxs_is_visible_char` -/
def escapeText (org : Bxs) : Str → Nat → Str
  | [], _ => []
  | c :: rest, idx =>
    if (c == chBackslash || c == chQuote) && org.isVisibleChar idx then chBackslash :: c :: escapeText org rest (idx + 1)
    else c :: escapeText org rest (idx + 1)

/-- src/list.c:170-190 `escape` -/
def escape (db : CharDb) (org : Bxs) : Option Bxs := fromUnicode db (escapeText org org.memory 0)

end Boxes
