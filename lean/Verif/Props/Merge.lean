import Verif.Spec.Merge
import Verif.Props.Config
import Verif.Props.Discovery

/-!
# C33: child configurations win over their parents

`parseConfigFiles env contents fuel first = some r`: reading the configuration file `first` and its parents ends with `r`.
-/
namespace Boxes
open Spec
set_option linter.unusedSimpArgs false

section Firsts
variable {α : Type} {R : α → α → Prop}

theorem Spec.Firsts.order {all res : List α} (h : Firsts R all res) : res.Sublist all := by
  induction h with
  | nil => exact .slnil
  | take d _ _ ih => exact ih.append (List.Sublist.refl _)
  | leave d _ _ ih => exact ih.trans (List.sublist_append_left _ _)

theorem Spec.Firsts.distinct {all res : List α} (h : Firsts R all res) : res.Pairwise (fun a b => ¬ R a b) := by
  induction h with
  | nil => exact .nil
  | take d h hn ih =>
    rw [List.pairwise_append]
    refine ⟨ih, List.pairwise_singleton _ _, ?_⟩
    intro a ha b hb
    rw [List.mem_singleton.1 hb]
    exact hn a (h.order.subset ha)
  | leave d _ _ ih => exact ih

theorem Spec.Firsts.covers (hrefl : ∀ a, R a a) (htrans : ∀ {a b c}, R a b → R b c → R a c) {all res : List α} (h : Firsts R all res) :
    ∀ d ∈ all, ∃ e ∈ res, R e d := by
  induction h with
  | nil => simp
  | take d h hn ih =>
    intro x hx
    rcases List.mem_append.1 hx with hx | hx
    · obtain ⟨e, he, hr⟩ := ih x hx
      exact ⟨e, List.mem_append_left _ he, hr⟩
    · rw [List.mem_singleton.1 hx]
      exact ⟨d, by simp, hrefl d⟩
  | leave d h hk ih =>
    intro x hx
    rcases List.mem_append.1 hx with hx | hx
    · exact ih x hx
    · rw [List.mem_singleton.1 hx]
      obtain ⟨e, he, hr⟩ := hk
      obtain ⟨e', he', hr'⟩ := ih e he
      exact ⟨e', he', htrans hr' hr⟩

/-- the first element of all is the first one of the result -/
theorem Spec.Firsts.head {all res : List α} (h : Firsts R all res) : res.head? = all.head? := by
  induction h with
  | nil => rfl
  | take d h _ ih =>
    rw [List.head?_append, List.head?_append, ih]
  | @leave all _ d h hk ih =>
    rw [ih]
    obtain ⟨e, he, -⟩ := hk
    cases all with
    | nil => simp at he
    | cons x xs => rfl

theorem Spec.Firsts.skip {all res : List α} (h : Firsts R all res) {d : α} (hd : ∃ e ∈ res, R e d) : Firsts R (all ++ [d]) res := by
  obtain ⟨e, he, hr⟩ := hd
  exact .leave d h ⟨e, h.order.subset he, hr⟩

theorem Spec.Firsts.add (hrefl : ∀ a, R a a) (htrans : ∀ {a b c}, R a b → R b c → R a c) {all res : List α} (h : Firsts R all res) {d : α}
    (hd : ¬ ∃ e ∈ res, R e d) : Firsts R (all ++ [d]) (res ++ [d]) := by
  refine .take d h ?_
  intro e he hr
  obtain ⟨e', he', hr'⟩ := h.covers hrefl htrans e he
  exact hd ⟨e', he', htrans hr' hr⟩

theorem Spec.Firsts.fold (hrefl : ∀ a, R a a) (htrans : ∀ {a b c}, R a b → R b c → R a c) (test : List α → α → Bool)
    (ht : ∀ l d, test l d = true ↔ ∃ e ∈ l, R e d) : ∀ (new all res : List α), Firsts R all res →
    Firsts R (all ++ new) (new.foldl (fun r d => if test r d then r else r ++ [d]) res) := by
  intro new
  induction new with
  | nil => intro all res h; simpa using h
  | cons d rest ih =>
    intro all res h
    rw [List.foldl_cons, show all ++ d :: rest = (all ++ [d]) ++ rest by simp]
    apply ih
    by_cases hd : test res d = true
    · rw [if_pos hd]; exact h.skip ((ht _ _).1 hd)
    · rw [if_neg hd]; exact h.add hrefl htrans (fun x => hd ((ht _ _).2 x))

end Firsts

theorem sameDesign_test (l : List DesignDef) (d : DesignDef) : designsContain l d = true ↔ ∃ e ∈ l, SameDesign e d := by
  unfold designsContain SameDesign
  rw [List.any_eq_true]
  simp only [sameName_iff]

theorem sameFile_test (l : List Bxs) (d : Bxs) : arrayContainsBxs l d = true ↔ ∃ e ∈ l, SameFile e d := by
  unfold arrayContainsBxs SameFile
  rw [List.any_eq_true]
  simp only [beq_iff_eq]

theorem foldl_distinct : ∀ (new res : List DesignDef), new.Pairwise (fun a b => ¬ SameDesign a b) →
    (∀ e ∈ res, ∀ d ∈ new, ¬ SameDesign e d) → new.foldl (fun r d => if designsContain r d then r else r ++ [d]) res = res ++ new := by
  intro new
  induction new with
  | nil => intro res _ _; simp
  | cons d rest ih =>
    intro res hp hr
    have hp' := List.pairwise_cons.1 hp
    rw [List.foldl_cons, if_neg, ih _ hp'.2]
    · simp
    · intro e he x hx
      rcases List.mem_append.1 he with he | he
      · exact hr e he x (List.mem_cons_of_mem _ hx)
      · rw [List.mem_singleton.1 he]; exact hp'.1 x hx
    · rw [sameDesign_test]
      rintro ⟨e, he, hs⟩
      exact hr e he d List.mem_cons_self hs

theorem copyDesigns_firsts {all res new : List DesignDef} (h : Firsts SameDesign all res) (hn : new.Pairwise (fun a b => ¬ SameDesign a b)) :
    Firsts SameDesign (all ++ new) (copyDesigns new res) := by
  have hf := Firsts.fold (R := SameDesign) (fun a => rfl) (fun {a b c} x y => Eq.trans x y) designsContain sameDesign_test new all res h
  unfold copyDesigns
  by_cases h0 : new.length > 0
  · rw [if_pos h0]
    cases res with
    | nil =>
      rw [foldl_distinct new [] hn (by simp)] at hf
      simpa using hf
    | cons a r => simpa using hf
  · have : new = [] := List.length_eq_zero_iff.1 (by omega)
    subst this
    simpa using h

theorem parseConfigFile_distinct {env : ParseEnv} {contents : Bxs → Option (List Decl)} {file : Bxs} {children ds : List DesignDef}
    {ps : List Bxs} (h : parseConfigFile env contents file children = .ok (ds, ps)) : ds.Pairwise (fun a b => ¬ SameDesign a b) := by
  unfold parseConfigFile at h
  split at h
  · simp only [Res.ok.injEq, Prod.mk.injEq] at h; rw [← h.1]; exact List.Pairwise.nil
  · split at h
    · simp at h
    · simp only [Res.ok.injEq, Prod.mk.injEq] at h; rw [← h.1]; exact List.Pairwise.nil
    · rename_i decls hc r hr
      simp only [Res.ok.injEq] at h
      subst h
      exact (C53_distinct _ _ _ _ _ hr).imp (fun hh hs => hh _ List.mem_cons_self _ List.mem_cons_self hs)

theorem mergeLoop_visits (env : ParseEnv) (contents : Bxs → Option (List Decl)) : ∀ (fuel : Nat) (file : Bxs) (result : List DesignDef)
    (parents : List Bxs) (parsed : Nat) (first : Bxs) (vs : List Visit) (ds : List DesignDef) (ps : List Bxs),
    mergeLoop env contents fuel file result parents parsed = some (.ok (ds, ps)) →
    vs.length = parsed → vs.map (·.file) ++ [file] = (first :: parents).take (parsed + 1) →
    (∀ i v, vs[i]? = some v → ∃ known, Firsts SameDesign ((vs.take i).flatMap (·.designs)) known ∧
      parseConfigFile env contents v.file known = .ok (v.designs, v.parents)) →
    Firsts SameDesign (vs.flatMap (·.designs)) result → Firsts SameFile (vs.flatMap (·.parents.reverse)) parents →
    ∃ vs' : List Visit, vs'.map (·.file) = first :: ps ∧
      (∀ i v, vs'[i]? = some v → ∃ known, Firsts SameDesign ((vs'.take i).flatMap (·.designs)) known ∧
        parseConfigFile env contents v.file known = .ok (v.designs, v.parents)) ∧
      Firsts SameDesign (vs'.flatMap (·.designs)) ds ∧ Firsts SameFile (vs'.flatMap (·.parents.reverse)) ps := by
  intro fuel
  induction fuel with
  | zero => intro file result parents parsed first vs ds ps h; simp [mergeLoop] at h
  | succ fuel ih =>
    intro file result parents parsed first vs ds ps h hlen hfiles hvs hres hpar
    rw [mergeLoop] at h
    cases hp : parseConfigFile env contents file result with
    | ub => rw [hp] at h; simp at h
    | fail c => rw [hp] at h; simp at h
    | ok r =>
      obtain ⟨d1, p1⟩ := r
      rw [hp] at h
      simp only at h
      have hres' := copyDesigns_firsts hres (parseConfigFile_distinct hp)
      have hpar' : Firsts SameFile (vs.flatMap (·.parents.reverse) ++ p1.reverse) (recordParentConfigFiles parents p1) :=
        Firsts.fold (R := SameFile) (fun a => rfl) (fun {a b c} x y => Eq.trans x y) arrayContainsBxs sameFile_test _ _ _ hpar
      have hvs' : ∀ i v, (vs ++ [Visit.mk file d1 p1])[i]? = some v →
          ∃ known, Firsts SameDesign (((vs ++ [Visit.mk file d1 p1]).take i).flatMap (·.designs)) known ∧
            parseConfigFile env contents v.file known = .ok (v.designs, v.parents) := by
        intro i v hv
        by_cases hi : i < vs.length
        · rw [List.getElem?_append_left hi] at hv
          obtain ⟨k, hk1, hk2⟩ := hvs i v hv
          refine ⟨k, ?_, hk2⟩
          rw [List.take_append_of_le_length (by omega)]
          exact hk1
        · have hi' : i = vs.length := by
            obtain ⟨hlt, -⟩ := List.getElem?_eq_some_iff.1 hv
            simp at hlt
            omega
          subst hi'
          simp only [List.getElem?_concat_length, Option.some.injEq] at hv
          subst hv
          refine ⟨result, ?_, hp⟩
          rw [List.take_append_of_le_length (Nat.le_refl _), List.take_length]
          exact hres
      have hmap : ((vs ++ [Visit.mk file d1 p1]).map (·.file)) = vs.map (·.file) ++ [file] := by simp
      have hfd : (vs ++ [Visit.mk file d1 p1]).flatMap (·.designs) = vs.flatMap (·.designs) ++ d1 := by simp
      have hfp : (vs ++ [Visit.mk file d1 p1]).flatMap (·.parents.reverse) = vs.flatMap (·.parents.reverse) ++ p1.reverse := by simp
      have hpre : parents <+: recordParentConfigFiles parents p1 := by
        unfold recordParentConfigFiles
        generalize p1.reverse = l
        clear h hpar' hpar hfiles hvs' hmap hfd hfp
        induction l generalizing parents with
        | nil => exact List.prefix_refl _
        | cons a l ihl =>
          rw [List.foldl_cons]
          split
          · exact ihl _
          · exact (List.prefix_append _ _).trans (ihl _)
      have hlenp : parsed ≤ parents.length := by
        have := congrArg List.length hfiles
        simp at this
        omega
      have hfiles' : vs.map (·.file) ++ [file] = (first :: recordParentConfigFiles parents p1).take (parsed + 1) := by
        obtain ⟨t, ht⟩ := hpre
        rw [hfiles, ← ht, List.take_succ_cons, List.take_succ_cons, List.take_append_of_le_length hlenp]
      generalize recordParentConfigFiles parents p1 = par2 at h hpar' hfiles' hpre
      have hlen2 : parsed ≤ par2.length := Nat.le_trans hlenp hpre.length_le
      cases hn : par2[parsed]? with
      | none =>
        rw [hn] at h
        simp only [Option.some.injEq, Res.ok.injEq, Prod.mk.injEq] at h
        obtain ⟨rfl, rfl⟩ := h
        refine ⟨vs ++ [Visit.mk file d1 p1], ?_, hvs', by rw [hfd]; exact hres', by rw [hfp]; exact hpar'⟩
        have : par2.length ≤ parsed := List.getElem?_eq_none_iff.1 hn
        rw [hmap, hfiles', List.take_of_length_le (by simp; omega)]
      | some next =>
        rw [hn] at h
        simp only at h
        refine ih next _ par2 (parsed + 1) first (vs ++ [Visit.mk file d1 p1]) ds ps h (by simp [hlen]) ?_ hvs' (by rw [hfd]; exact hres')
          (by rw [hfp]; exact hpar')
        obtain ⟨hlt, hget⟩ := List.getElem?_eq_some_iff.1 hn
        rw [hmap, hfiles', List.take_succ_cons, List.take_succ_cons, List.cons_append,
          List.take_succ_eq_append_getElem hlt, hget]

/-- C33: the files are read one after the other, beginning with the given one, each once: their parents in the order in which they
are found (in each file the last one first).  Of all their designs the first of each name is kept, in their order. -/
theorem C33_merged (env : ParseEnv) (contents : Bxs → Option (List Decl)) (fuel : Nat) (first : Bxs) (ds : List DesignDef) (ps : List Bxs)
    (h : parseConfigFiles env contents fuel first = some (.ok (ds, ps))) :
    ∃ vs : List Visit, vs.map (·.file) = first :: ps ∧
      (∀ i v, vs[i]? = some v → ∃ known, Firsts SameDesign ((vs.take i).flatMap (·.designs)) known ∧
        parseConfigFile env contents v.file known = .ok (v.designs, v.parents)) ∧
      Firsts SameDesign (vs.flatMap (·.designs)) ds ∧ Firsts SameFile (vs.flatMap (·.parents.reverse)) ps ∧ ds ≠ [] := by
  unfold parseConfigFiles at h
  cases hm : mergeLoop env contents fuel first [] [] 0 with
  | none => rw [hm] at h; simp at h
  | some r =>
    rw [hm] at h
    cases r with
    | ub => simp at h
    | fail c => simp at h
    | ok r =>
      obtain ⟨d, p⟩ := r
      simp only at h
      split at h
      · simp at h
      · rename_i h0
        simp only [Option.some.injEq, Res.ok.injEq, Prod.mk.injEq] at h
        obtain ⟨rfl, rfl⟩ := h
        obtain ⟨vs, h1, h2, h3, h4⟩ := mergeLoop_visits env contents fuel first [] [] 0 first [] d p hm rfl (by simp) (by simp) .nil .nil
        exact ⟨vs, h1, h2, h3, h4, by intro e; subst e; simp at h0⟩

/-! ## reading ends -/

theorem distinct_length : ∀ (l : List Bxs) (u : List Str), l.Pairwise (fun a b => ¬ SameFile a b) →
    (∀ p ∈ l, p.memory ∈ u) → l.length ≤ u.length := by
  intro l
  induction l with
  | nil => intro u _ _; simp
  | cons a r ih =>
    intro u hp hu
    have hp' := List.pairwise_cons.1 hp
    have hm := hu a List.mem_cons_self
    have := ih (u.erase a.memory) hp'.2 (by
      intro p hpm
      refine (List.mem_erase_of_ne ?_).2 (hu p (List.mem_cons_of_mem _ hpm))
      intro e
      exact hp'.1 p hpm e.symm)
    rw [List.length_erase_of_mem hm] at this
    have hpos := List.length_pos_of_mem hm
    simp only [List.length_cons]
    omega

/-- the file names in a file that are used for its parents -/
theorem parseDecls_parents (env : ParseEnv) : ∀ (decls : List Decl) (ds0 : List DesignDef) (ps0 : List Bxs) (ds : List DesignDef)
    (ps : List Bxs) (e : Bool), parseDecls env decls ds0 ps0 = .ok (ds, ps, e) →
    ∀ p ∈ ps, p ∈ ps0 ∨ ∃ path, .parent path ∈ decls ∧ resolveParent env path = some p := by
  intro decls
  induction decls with
  | nil =>
    intro ds0 ps0 ds ps e h p hp
    simp only [parseDecls, Res.ok.injEq, Prod.mk.injEq] at h
    rw [h.2.1]
    exact Or.inl hp
  | cons d rest ih =>
    intro ds0 ps0 ds ps e h p hp
    cases d with
    | parent path =>
      rw [parseDecls] at h
      rcases ih _ _ _ _ _ h p hp with h1 | ⟨q, h1, h2⟩
      · cases hr : resolveParent env path with
        | none => rw [hr] at h1; exact Or.inl h1
        | some x =>
          rw [hr] at h1
          simp only [recordParent] at h1
          split at h1
          · exact Or.inl h1
          · rcases List.mem_append.1 h1 with h1 | h1
            · exact Or.inl h1
            · rw [List.mem_singleton.1 h1]; exact Or.inr ⟨path, List.mem_cons_self, hr⟩
      · exact Or.inr ⟨q, List.mem_cons_of_mem _ h1, h2⟩
    | box name aliases items nameAtEnd =>
      rw [parseDecls] at h
      have lift : (p ∈ ps0 ∨ ∃ path, .parent path ∈ rest ∧ resolveParent env path = some p) →
          p ∈ ps0 ∨ ∃ path, .parent path ∈ Decl.box name aliases items nameAtEnd :: rest ∧ resolveParent env path = some p := by
        rintro (x | ⟨q, x, y⟩)
        · exact Or.inl x
        · exact Or.inr ⟨q, List.mem_cons_of_mem _ x, y⟩
      split at h
      · simp at h
      · split at h
        · simp at h
        · exact lift (ih _ _ _ _ _ h p hp)
      · split at h
        · simp only [Res.ok.injEq, Prod.mk.injEq] at h
          rw [h.2.1]; exact Or.inl hp
        · exact lift (ih _ _ _ _ _ h p hp)

theorem parseConfigFile_parents {env : ParseEnv} {contents : Bxs → Option (List Decl)} {file : Bxs} {children ds : List DesignDef}
    {ps : List Bxs} (h : parseConfigFile env contents file children = .ok (ds, ps)) :
    ∀ p ∈ ps, ∃ decls path, contents file = some decls ∧ .parent path ∈ decls ∧ resolveParent env path = some p := by
  intro p hp
  unfold parseConfigFile at h
  split at h
  · simp only [Res.ok.injEq, Prod.mk.injEq] at h; rw [← h.2] at hp; simp at hp
  · split at h
    · simp at h
    · simp only [Res.ok.injEq, Prod.mk.injEq] at h; rw [← h.2] at hp; simp at hp
    · rename_i hc x r hr
      simp only [Res.ok.injEq] at h
      subst h
      unfold parseConfig at hr
      obtain ⟨⟨ds1, ps1, early⟩, h1, h2⟩ := Res.bind_eq_ok.1 hr
      have hps : ps1 = ps := by
        simp only at h2
        split at h2
        · simp only [Res.ok.injEq, Prod.mk.injEq] at h2; exact h2.2
        · split at h2
          · simp at h2
          · simp only [Res.ok.injEq, Prod.mk.injEq] at h2; exact h2.2
      subst hps
      rcases parseDecls_parents _ _ _ _ _ _ _ h1 p hp with h3 | ⟨path, h3, h4⟩
      · simp at h3
      · exact ⟨_, path, hc, h3, h4⟩

theorem mergeLoop_ends (env : ParseEnv) (contents : Bxs → Option (List Decl)) (u : List Str)
    (hu : ∀ file decls path p, contents file = some decls → .parent path ∈ decls → resolveParent env path = some p → p.memory ∈ u) :
    ∀ (fuel : Nat) (file : Bxs) (result : List DesignDef) (parents : List Bxs) (parsed : Nat) (all : List Bxs),
    Firsts SameFile all parents → (∀ p ∈ parents, p.memory ∈ u) → parsed ≤ u.length → u.length + 1 ≤ fuel + parsed →
    mergeLoop env contents fuel file result parents parsed ≠ none := by
  intro fuel
  induction fuel with
  | zero => intro file result parents parsed all _ _ h1 h2; omega
  | succ fuel ih =>
    intro file result parents parsed all hf hm h1 h2
    rw [mergeLoop]
    cases hp : parseConfigFile env contents file result with
    | ub => simp
    | fail c => simp
    | ok r =>
      obtain ⟨d1, p1⟩ := r
      simp only
      have hf' : Firsts SameFile (all ++ p1.reverse) (recordParentConfigFiles parents p1) :=
        Firsts.fold (R := SameFile) (fun a => rfl) (fun {a b c} x y => Eq.trans x y) arrayContainsBxs sameFile_test _ _ _ hf
      have hm' : ∀ p ∈ recordParentConfigFiles parents p1, p.memory ∈ u := by
        have : ∀ (l par : List Bxs), (∀ p ∈ l, p.memory ∈ u) → (∀ p ∈ par, p.memory ∈ u) →
            ∀ p ∈ l.foldl (fun ps p => if arrayContainsBxs ps p then ps else ps ++ [p]) par, p.memory ∈ u := by
          intro l
          induction l with
          | nil => intro par _ hpar; exact hpar
          | cons a l ihl =>
            intro par hl hpar
            rw [List.foldl_cons]
            apply ihl _ (fun p hp => hl p (List.mem_cons_of_mem _ hp))
            split
            · exact hpar
            · intro p hp
              rcases List.mem_append.1 hp with hp | hp
              · exact hpar p hp
              · rw [List.mem_singleton.1 hp]; exact hl a List.mem_cons_self
        apply this _ _ _ hm
        intro p hp'
        obtain ⟨decls, path, c1, c2, c3⟩ := parseConfigFile_parents hp p (List.mem_reverse.1 hp')
        exact hu file decls path p c1 c2 c3
      generalize recordParentConfigFiles parents p1 = par2 at hf' hm'
      cases hn : par2[parsed]? with
      | none => simp
      | some next =>
        simp only
        have hlt : parsed < par2.length := (List.getElem?_eq_some_iff.1 hn).1
        have hle := distinct_length par2 u hf'.distinct hm'
        exact ih next _ par2 (parsed + 1) _ hf' hm' (by omega) (by omega)

/-- C33: reading ends, even if the references to parents form a cycle: if all references to parents name only finitely many files,
at most so many are read besides the given one. -/
theorem C33_ends (env : ParseEnv) (contents : Bxs → Option (List Decl)) (u : List Str)
    (hu : ∀ file decls path p, contents file = some decls → .parent path ∈ decls → resolveParent env path = some p → p.memory ∈ u)
    (fuel : Nat) (hfuel : u.length < fuel) (first : Bxs) : parseConfigFiles env contents fuel first ≠ none := by
  have := mergeLoop_ends env contents u hu fuel first [] [] 0 [] .nil (by simp) (by omega) (by omega)
  unfold parseConfigFiles
  cases hm : mergeLoop env contents fuel first [] [] 0 with
  | none => exact absurd hm this
  | some r =>
    cases r with
    | ok r =>
      obtain ⟨d, p⟩ := r
      simp only
      split <;> simp
    | ub => simp
    | fail c => simp

/-- a file name -/
def fileName (s : String) : Bxs := (fromUnicode sampleDb (lit s)).getD ⟨[], [], 0, 0, 0, 0, 0, 0, [], []⟩

/-- three files, the first and the second of which refer to each other -/
def circular (b : Bxs) : Option (List Decl) :=
  if b.memory = lit "a" then some [.parent (lit "b"), .parent (lit "c"), .box (lit "x") [] minimalItems (lit "x")]
  else if b.memory = lit "b" then some [.parent (lit "a"), .box (lit "X") [] minimalItems (lit "X"), .box (lit "y") [] minimalItems (lit "y")]
  else if b.memory = lit "c" then some [.box (lit "z") [] minimalItems (lit "z"), .box (lit "y") [lit "q"] minimalItems (lit "y")]
  else none

/-- names of the designs and files -/
def mergeSummary (r : Option (Res (List DesignDef × List Bxs))) : Option (List (List Str) × List Str) :=
  match r with
  | some (.ok (ds, ps)) => some (ds.map (·.names), ps.map (·.memory))
  | _ => none

example : mergeSummary (parseConfigFiles { sampleEnv with l := true } circular 4 (fileName "a")) =
    some ([[lit "x"], [lit "z"], [lit "y", lit "q"]], [lit "c", lit "b", lit "a"]) := by decide +kernel

/-- C33: a parent's design is kept even if its name is an alias of a design in the child configuration, and the parent's alias even if
it is the name of a design in the child configuration. -/
theorem C33_alias_disagrees :
    mergeSummary (parseConfigFiles { sampleEnv with l := true } (fun b =>
      if b.memory = lit "a" then some [.parent (lit "b"), .box (lit "x") [lit "y"] minimalItems (lit "x")]
      else some [.box (lit "y") [lit "x"] minimalItems (lit "y")]) 4 (fileName "a")) =
    some ([[lit "x", lit "y"], [lit "y", lit "x"]], [lit "b"]) := by decide +kernel

end Boxes
