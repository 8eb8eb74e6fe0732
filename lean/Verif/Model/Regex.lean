import Verif.Model.Types

/-!
# Replacement by regular expression: src/regulex.c

PCRE2 is a black box: a function from the size of the output buffer (in characters) to what `pcre2_substitute` does with it.
-/
namespace Boxes

/-- one call of `pcre2_substitute`: the return code, the value stored in `outlen`, and the text written to the output buffer -/
structure SubstCall where
  rc : Int
  outlen : Nat
  written : Str
deriving DecidableEq, Repr

/-- `PCRE2_ERROR_NOMEMORY` (pcre2.h) -/
def pcre2NoMemory : Int := -48

/-- what the loop in src/regulex.c:119-146 ends with: the return code of the last call and the output buffer -/
def regexLoop (call : Nat → SubstCall) : Nat → Nat → Option (Int × Str)
  | 0, _ => none
  | fuel + 1, bufsize =>
    let r := call bufsize
    if r.rc ≠ pcre2NoMemory ∨ bufsize ≥ r.outlen then some (r.rc, r.written) else regexLoop call fuel r.outlen

/-- src/regulex.c:107-160 `u32_regex_replace`; the inner `none` is its NULL return, the outer one means that the loop did not end within the
fuel -/
def u32RegexReplace (call : Nat → SubstCall) (inputLen fuel : Nat) : Option (Option Str) :=
  let bufsize := if inputLen < 8 then 16 else inputLen * 2
  (regexLoop call fuel bufsize).map (fun r => if r.1 < 0 then none else some r.2)

end Boxes
