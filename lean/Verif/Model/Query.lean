import Verif.Model.Parse

/-!
# Model of src/query.c and of the listing in src/list.c

Strings are lists of bytes here.  Memory exhaustion is not modelled.
-/
namespace Boxes

/-- src/query.c:33 `QUERY_ALL` -/
def queryAll : Str := lit "(all)"

/-- src/query.c:37-43 `validate_tag` -/
def validateTag (tag : Str) : Bool := tag == queryAll || tagIsValid tag

/-- `strtok (..., ",")` in src/query.c:56: the non-empty stretches without a comma.  `cur` is the current stretch, reversed. -/
def strtokComma : Str → Str → List Str
  | cur, [] => if cur.isEmpty then [] else [cur.reverse]
  | cur, c :: rest =>
    if c = chComma then (if cur.isEmpty then strtokComma [] rest else cur.reverse :: strtokComma [] rest)
    else strtokComma (c :: cur) rest

/-- the characters `+` and `-` -/
def chPlus : Nat := 0x2b
def chMinus : Nat := 0x2d

/-- src/query.c:68 and 77: `(t[0] == '+' || t[0] == '-') ? (t + 1) : t` -/
def rawTag : Str → Str
  | [] => []
  | c :: rest => if c = chPlus ∨ c = chMinus then rest else c :: rest

/-- src/query.c:56-95: the loop over the expressions.  `query` is what was collected, `positive` is
`contains_positive_element`. -/
def parseQueryLoop : List Str → List Str → Bool → Option (List Str × Bool)
  | [], query, positive => some (query, positive)
  | q :: rest, query, positive => do
    let trimmed ← (trimdup q 0 ((q.length : Int) - 1)).map (·.data)
    if trimmed.length = 0 then parseQueryLoop rest query positive
    else
      let positive := if trimmed.head? != some chMinus then true else positive
      if !validateTag (rawTag trimmed) then none
      else if query.any (fun e => strCaseEq (rawTag e) (rawTag trimmed)) then none
      else parseQueryLoop rest (query ++ [trimmed]) positive

/-- src/query.c:47-116 `parse_query` -/
def parseQuery (optarg : Str) : Option (List Str) := do
  let (query, positive) ← parseQueryLoop (strtokComma [] optarg) [] false
  if query.length = 0 then none
  else if !positive then some (query ++ [queryAll])
  else some query

/-- src/query.c:131-147: the loop over the query -/
def filterLoop (tags : List Str) : List Str → Bool → Bool
  | [], result => result
  | q :: rest, result =>
    if q.head? = some chPlus then
      if !arrayContains0 tags (q.drop 1) then false else filterLoop tags rest true
    else if q.head? = some chMinus then
      if arrayContains0 tags (q.drop 1) then false else filterLoop tags rest result
    else if arrayContains0 tags q then filterLoop tags rest true
    else filterLoop tags rest result

/-- src/query.c:120-152 `filter_by_tag` -/
def filterByTag (query tags : List Str) : Bool := filterLoop tags query (arrayContains0 query queryAll)

/-- `strcasecmp (a, b) <= 0` -/
def strCaseLe : Str → Str → Bool
  | [], _ => true
  | _ :: _, [] => false
  | a :: as, b :: bs =>
    if toLower a < toLower b then true else if toLower b < toLower a then false else strCaseLe as bs

/-- put an element in front of the first one that is not smaller -/
def insertBy {α : Type} (le : α → α → Bool) (x : α) : List α → List α
  | [] => [x]
  | y :: rest => if le x y then x :: y :: rest else y :: insertBy le x rest

/-- the C library's `qsort`.  C leaves it open how it orders equal elements; here their order is kept. -/
def qsort {α : Type} (le : α → α → Bool) : List α → List α
  | [] => []
  | x :: rest => insertBy le x (qsort le rest)

/-- src/list.c:103-124 `sort_designs_by_name` and `style_sort` -/
def sortDesignsByName (designs : List DesignDef) : List DesignDef := qsort (fun a b => strCaseLe a.name b.name) designs

/-- src/query.c:163-168: what is printed for a design that was found -/
def foundLines (eol : Str) (d : DesignDef) : Str :=
  d.name ++ eol ++ (d.aliases.map (fun a => a ++ lit " (alias)" ++ eol)).flatten

/-- src/query.c:156-172 `query_by_tag`: the text that is printed -/
def queryByTag (eol : Str) (designs : List DesignDef) (query : List Str) : Str :=
  ((sortDesignsByName designs).map (fun d => if filterByTag query d.tags then foundLines eol d else [])).flatten

/-- src/list.c:48-53: the loop in `analyze_names`; the result is the number of aliases and of characters -/
def analyzeLoop : List Str → Nat → Nat → Nat × Nat
  | [], numAliases, siz => (numAliases, siz)
  | a :: rest, numAliases, siz =>
    let siz := siz + a.length
    let siz := if numAliases > 0 then siz + 2 else siz
    analyzeLoop rest (numAliases + 1) siz

/-- src/list.c:44-61 `analyze_names` -/
def analyzeNames (d : DesignDef) : Nat × Nat :=
  let (n, siz) := analyzeLoop d.aliases 0 d.name.length
  (n, if n > 0 then siz + 7 else siz)

/-- src/list.c:88-96: append the aliases to the buffer -/
def aliasLoop (numAliases : Nat) : List Str → Nat → Buf → Option Buf
  | [], _, b => some b
  | a :: rest, aidx, b => do
    let b ← b.put a
    let b ← if aidx < numAliases - 1 then b.put (lit ", ") else some b
    aliasLoop numAliases rest (aidx + 1) b

/-- src/list.c:70-99 `names`; `none` when the text does not fit in the memory that was allocated for it -/
def namesText (d : DesignDef) : Option Buf := do
  let (numAliases, siz) := analyzeNames d
  let b ← Buf.put ⟨siz + 1, []⟩ d.name
  if numAliases > 0 then
    let b ← b.put (lit " alias ")
    aliasLoop numAliases d.aliases 0 b
  else some b

/-- src/list.c:128-143 `count_tag` -/
def countTag (tag : Str) : List (Str × Nat) → List (Str × Nat)
  | [] => [(tag, 1)]
  | (t, n) :: rest => if strCaseEq t tag then (t, n + 1) :: rest else (t, n) :: countTag tag rest

/-- src/list.c:391-393: count the tags of all designs -/
def tagStats (designs : List DesignDef) : List (Str × Nat) :=
  (designs.flatMap (·.tags)).foldl (fun stats tag => countTag tag stats) []

/-- src/list.c:154-166 `print_tags` before printing: the sorted statistics -/
def sortedTagStats (designs : List DesignDef) : List (Str × Nat) :=
  qsort (fun a b => strCaseLe a.1 b.1) (tagStats (sortDesignsByName designs))

/-- decimal digits of a number, as printed by `%d` -/
def decimal (n : Nat) : Str := (Nat.toDigits 10 n).map Char.toNat

/-- src/list.c:157-163: the entries of the tag statistics, separated -/
def tagStatsText : List (Str × Nat) → Nat → Str
  | [], _ => []
  | (t, n) :: rest, tidx =>
    (if tidx > 0 then lit " | " else []) ++ t ++ lit " (" ++ decimal n ++ lit ")" ++ tagStatsText rest (tidx + 1)

/-- src/list.c:154-166 `print_tags` -/
def printTags (eol : Str) (stats : List (Str × Nat)) : Str :=
  if stats.isEmpty then [] else tagStatsText stats 0 ++ eol

/-- src/list.c:365-389: what is printed for one design in the list of all designs; `none` for an access outside of memory -/
def listEntry (color : Bool) (eol : Str) (d : DesignDef) : Option Str := do
  let names ← (namesText d).map (·.data)
  match d.author, d.designer with
  | some a, some g =>
    if a.memory != g.memory then
      some (names ++ eol ++ (← g.toOutput color) ++ lit ", coded by " ++ (← a.toOutput color) ++ lit ":" ++ eol ++ eol ++
        (← (← d.sample).toOutput color) ++ eol ++ eol)
    else some (names ++ eol ++ (← g.toOutput color) ++ lit ":" ++ eol ++ eol ++ (← (← d.sample).toOutput color) ++ eol ++ eol)
  | none, some g =>
    some (names ++ eol ++ (← g.toOutput color) ++ lit ":" ++ eol ++ eol ++ (← (← d.sample).toOutput color) ++ eol ++ eol)
  | some a, none =>
    some (names ++ eol ++ lit "unknown artist, coded by " ++ (← a.toOutput color) ++ lit ":" ++ eol ++ eol ++
      (← (← d.sample).toOutput color) ++ eol ++ eol)
  | none, none => some (names ++ lit ":" ++ eol ++ eol ++ (← (← d.sample).toOutput color) ++ eol ++ eol)

/-- the loop over all designs in src/list.c:364-394: the texts of the entries; `none` when memory was overrun -/
def listEntries (color : Bool) (eol : Str) : List DesignDef → Option Str
  | [] => some []
  | d :: rest => do
    let e ← listEntry color eol d
    let r ← listEntries color eol rest
    some (e ++ r)

/-- src/parsing.c:77-105 `print_design_list_header`; `first` is the configuration file, `parents` its parents.
`%d` prints the number of designs. -/
def designListHeader (eol : Str) (numDesigns : Nat) (first : Bxs) (parents : List Bxs) : Str :=
  let buf := decimal numDesigns
  let s := if numDesigns = 1 then [] else lit "s"
  let dash := if numDesigns = 1 then [] else lit "-"
  decimal numDesigns ++ lit " Available Style" ++ s ++
    (if parents.length > 0 then
      lit ":" ++ eol ++ lit "-----------------" ++ dash ++ List.replicate buf.length chMinus ++ eol ++ eol ++
        lit "Configuration Files:" ++ eol ++ lit "    - " ++ first.memory ++ eol ++
        (parents.map (fun p => lit "    - " ++ p.memory ++ lit " (parent)" ++ eol)).flatten
    else
      lit " in \"" ++ first.memory ++ lit "\":" ++ eol ++ lit "-----------------------" ++ dash ++
        List.replicate (first.cols + buf.length) chMinus) ++
    eol ++ eol

/-- src/list.c:357-399 (`list_designs`) when no design was chosen by the user -/
def listDesigns (color : Bool) (eol : Str) (first : Bxs) (parents : List Bxs) (designs : List DesignDef) : Option Str := do
  let entries ← listEntries color eol (sortDesignsByName designs)
  some (designListHeader eol designs.length first parents ++ entries ++ printTags eol (sortedTagStats designs))

end Boxes
