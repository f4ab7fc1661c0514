import Verif.Meta.Params

/-!
# Parameters (C52, C53)
-/

set_option linter.unusedSectionVars false
set_option linter.unusedVariables false

namespace Bta.Meta

open Py

/-! ## Specification -/

/-- What a declaration `pval` of a parameter means: the default value and, if given, the documentation. -/
inductive _root_.Spec.Declares : PyVal → PyVal → Prop
  /-- `name=default` -/
  | plain (v : PyVal) (h : v.isTup = false) : Spec.Declares v v
  /-- `name=(default, ...)` -/
  | tuple (v : PyVal) (l : List PyVal) : Spec.Declares (.tup (v :: l)) v

/-- The default of `p` after a hierarchy (most derived first): that of the first class which declares it. -/
inductive _root_.Spec.Default (p : String) : List PDecl → PyVal → Prop
  | here (d : PDecl) (ds : List PDecl) (pv v : PyVal) (h : get? d.toDict p = some pv) (hv : Spec.Declares pv v) :
      Spec.Default p (d :: ds) v
  | there (d : PDecl) (ds : List PDecl) (v : PyVal) (h : get? d.toDict p = none) (hd : Spec.Default p ds v) :
      Spec.Default p (d :: ds) v

/-! ## Lemmas -/

theorem genOne_params {pb : Dict String PInfo} {st st' : PState} {n : String} {pv v : PyVal} (hv : Spec.Declares pv v)
    (h : genOne pb st n pv = .ok st') : st'.params = set st.params n v := by
  cases hv with
  | plain _ hp =>
    cases pv <;> simp [PyVal.isTup] at hp <;> simp only [genOne, Except.ok.injEq] at h <;> rw [← h]
  | tuple _ l =>
    simp only [genOne, Except.ok.injEq] at h
    rw [← h]

theorem genOne_ok {pb : Dict String PInfo} {st : PState} {n : String} {pv v : PyVal} (hv : Spec.Declares pv v) :
    ∃ st', genOne pb st n pv = .ok st' := by
  cases hv with
  | plain _ hp => cases pv <;> simp [PyVal.isTup] at hp <;> exact ⟨_, rfl⟩
  | tuple _ l => exact ⟨_, rfl⟩

theorem Declares.unique {pv v w : PyVal} (h1 : Spec.Declares pv v) (h2 : Spec.Declares pv w) : v = w := by
  cases h1 with
  | plain _ h => cases h2 with
    | plain => rfl
    | tuple => simp [PyVal.isTup] at h
  | tuple => cases h2 with
    | plain _ h => simp [PyVal.isTup] at h
    | tuple => rfl

/-- After a dictionary of well-formed definitions: last definition of a name in the dictionary, else the value before. -/
theorem genDict_params (pb : Dict String PInfo) (d : Dict String PyVal) (hnd : (keys d).Nodup)
    (hw : ∀ p ∈ d, ∃ v, Spec.Declares p.2 v) (st : PState) :
    ∃ st', genDict pb st d = .ok st' ∧
      (∀ n pv v, get? d n = some pv → Spec.Declares pv v → get? st'.params n = some v) ∧
      (∀ n, get? d n = none → get? st'.params n = get? st.params n) ∧
      ((keys st.params).Nodup → (keys st'.params).Nodup) := by
  induction d generalizing st with
  | nil => exact ⟨st, rfl, by simp [get?], fun _ _ => rfl, id⟩
  | cons p d ih =>
    obtain ⟨n, pv⟩ := p
    obtain ⟨v, hv⟩ := hw (n, pv) (by simp)
    obtain ⟨st1, h1⟩ := genOne_ok (pb := pb) (st := st) (n := n) hv
    have hp := genOne_params hv h1
    simp only [keys, List.map_cons, List.nodup_cons] at hnd
    obtain ⟨st', h2, a1, a2, a3⟩ := ih hnd.2 (fun q hq => hw q (by simp [hq])) st1
    refine ⟨st', by simp only [genDict, bind, Except.bind, h1, h2], ?_, ?_, ?_⟩
    · intro m qv w hm hw'
      by_cases hmn : n = m
      · subst hmn
        simp only [get?, if_true, Option.some.injEq] at hm
        subst hm
        rw [a2 n (get?_eq_none_iff.2 hnd.1), hp, get?_set, if_pos rfl]
        rw [Declares.unique hv hw']
      · simp only [get?, if_neg hmn] at hm
        exact a1 m qv w hm hw'
    · intro m hm
      by_cases hmn : n = m
      · subst hmn; simp [get?] at hm
      · simp only [get?, if_neg hmn] at hm
        rw [a2 m hm, hp, get?_set, if_neg hmn]
    · intro hk
      refine a3 ?_
      rw [hp]
      exact nodup_keys_set hk _ _

/-- A declaration of a class body which python accepts: names are unique in a dictionary; at least a default is given. -/
def PDecl.Ok (d : PDecl) : Prop := (keys d.toDict).Nodup ∧ ∀ p ∈ d.toDict, ∃ v, Spec.Declares p.2 v

/-- No declared default is itself a tuple. -/
def PDecl.NoTuple (d : PDecl) : Prop := ∀ p ∈ d.toDict, ∀ v, Spec.Declares p.2 v → v.isTup = false

theorem declares_self {v : PyVal} (h : v.isTup = false) : Spec.Declares v v := .plain v h

theorem genParams_one (b : PCls) (d : PDecl) (hd : d.Ok) (hk : (keys b.params).Nodup)
    (hb : ∀ p ∈ b.params, p.2.isTup = false) :
    ∃ c, genParams [b] d = .ok c ∧ (keys c.params).Nodup ∧
      (∀ n pv v, get? d.toDict n = some pv → Spec.Declares pv v → get? c.params n = some v) ∧
      (∀ n, get? d.toDict n = none → get? c.params n = get? b.params n) := by
  unfold genParams
  simp only [List.map_cons, List.map_nil, List.cons_append, List.nil_append, genDicts, bind, Except.bind]
  obtain ⟨s1, h1, a1, a2, a3⟩ := genDict_params (update [] (List.flatMap (fun b => b.info) [b])) b.params hk
    (fun p hp => ⟨p.2, declares_self (hb p hp)⟩) ⟨[], []⟩
  obtain ⟨s2, h2, b1, b2, b3⟩ := genDict_params (update [] (List.flatMap (fun b => b.info) [b])) d.toDict hd.1 hd.2 s1
  rw [h1]
  simp only [h2]
  refine ⟨s2, rfl, b3 (a3 (by simp [keys])), b1, ?_⟩
  intro n hn
  rw [b2 n hn]
  cases hg : get? b.params n with
  | none => rw [a2 n hg]; rfl
  | some v => exact a1 n v v hg (declares_self (hb (n, v) (get?_eq_some_mem hg)))

theorem genChain_append (ds : List PDecl) (d : PDecl) (c : PCls) (h : genChain ds = .ok c) :
    genChain (ds ++ [d]) = genParams [c] d := by
  unfold genChain at *
  rw [List.foldl_append, h]
  rfl

/-- The class at the end of a hierarchy. -/
theorem genChain_spec (ds : List PDecl) (hok : ∀ d ∈ ds, d.Ok) (hnt : ∀ d ∈ ds, d.NoTuple) :
    ∃ c, genChain ds = .ok c ∧ (keys c.params).Nodup ∧ (∀ p ∈ c.params, p.2.isTup = false) ∧
      (∀ n v, get? c.params n = some v ↔ Spec.Default n ds.reverse v) := by
  induction ds using List.reverseRecOn with
  | nil =>
    refine ⟨⟨[], []⟩, rfl, by simp [keys], by simp, ?_⟩
    intro n v
    simp only [get?, List.reverse_nil]
    constructor
    · intro h; cases h
    · intro h; cases h
  | append_singleton ds d ih =>
    obtain ⟨c, hc, k1, k2, k3⟩ := ih (fun d hd => hok d (by simp [hd])) (fun d hd => hnt d (by simp [hd]))
    have hd := hok d (by simp)
    have hdn := hnt d (by simp)
    obtain ⟨c', h', e1, e2, e3⟩ := genParams_one c d hd k1 k2
    have hiff : ∀ n v, get? c'.params n = some v ↔ Spec.Default n (ds ++ [d]).reverse v := by
      intro n v
      rw [List.reverse_append, List.reverse_singleton, List.singleton_append]
      constructor
      · intro h
        cases hg : get? d.toDict n with
        | none =>
          rw [e3 n hg] at h
          exact .there d _ v hg ((k3 n v).1 h)
        | some pv =>
          obtain ⟨w, hw⟩ := hd.2 (n, pv) (get?_eq_some_mem hg)
          rw [e2 n pv w hg hw] at h
          cases h
          exact .here d _ pv _ hg hw
      · intro h
        cases h with
        | here _ _ pv _ hg hv => exact e2 n pv v hg hv
        | there _ _ _ hg hd' => rw [e3 n hg]; exact (k3 n v).2 hd'
    refine ⟨c', by rw [genChain_append ds d c hc, h'], e1, ?_, hiff⟩
    intro p hp
    have hg := mem_get?_of_nodup e1 (x := p.1) (v := p.2) hp
    cases hgd : get? d.toDict p.1 with
    | none =>
      rw [e3 _ hgd] at hg
      exact k2 _ (get?_eq_some_mem hg)
    | some pv =>
      obtain ⟨w, hw⟩ := hd.2 (p.1, pv) (get?_eq_some_mem hgd)
      rw [e2 _ pv w hgd hw] at hg
      cases hg
      exact hdn (p.1, pv) (get?_eq_some_mem hgd) _ hw

theorem get?_filter {d : Dict String PyVal} {q : String → Bool} (n : String) :
    get? (d.filter (fun p => q p.1)) n = if q n then get? d n else none := by
  induction d with
  | nil => simp [get?]
  | cons p d ih =>
    obtain ⟨k, v⟩ := p
    rw [List.filter_cons]
    by_cases hq : q k = true
    · simp only [hq, if_true, get?]
      by_cases hk : k = n
      · subst hk; simp [hq]
      · simp only [if_neg hk, ih]
    · simp only [hq, Bool.false_eq_true, if_false, get?, ih]
      by_cases hk : k = n
      · subst hk; simp [hq]
      · simp only [if_neg hk]

theorem get?_reverse {d : Dict String PyVal} (hn : (keys d).Nodup) (n : String) : get? d.reverse n = get? d n := by
  have hn' : (keys d.reverse).Nodup := by
    unfold keys at *
    rw [List.map_reverse]
    exact List.nodup_reverse.2 hn
  cases h : get? d n with
  | some v => exact mem_get?_of_nodup hn' (List.mem_reverse.2 (get?_eq_some_mem h))
  | none =>
    rw [get?_eq_none_iff] at *
    unfold keys at *
    rw [List.map_reverse, List.mem_reverse]
    exact h

/-! ## C52 -/

/-- C52 (partial: not if a default is itself a tuple, see `C52_tuple_default_fails`).  Let a hierarchy of classes declare parameters (root first) in any of the accepted formats, no default being a
tuple, and let the indicator be called with the keywords `kw`.  Then each declared parameter has the value which was
passed or else the default of the most derived class declaring it; nothing else is in the parameters; and exactly the
keywords which were not declared, with their values and in their order, are left to be forwarded. -/
theorem C52_resolution_partial (ds : List PDecl) (hok : ∀ d ∈ ds, d.Ok) (hnt : ∀ d ∈ ds, d.NoTuple) (kw : Dict String PyVal)
    (hkw : (keys kw).Nodup) :
    ∃ c, genChain ds = .ok c ∧
      (∀ n v, get? (fromKwargs c kw).1 n = some v ↔
        ∃ dflt, Spec.Default n ds.reverse dflt ∧ ((get? kw n = some v) ∨ (get? kw n = none ∧ v = dflt))) ∧
      (∀ n v, (n, v) ∈ (fromKwargs c kw).2 ↔ (n, v) ∈ kw ∧ ¬ ∃ dflt, Spec.Default n ds.reverse dflt) ∧
      (fromKwargs c kw).2.Sublist kw := by
  obtain ⟨c, hc, k1, k2, k3⟩ := genChain_spec ds hok hnt
  have hdecl : ∀ n, (get? c.params n).isSome ↔ ∃ dflt, Spec.Default n ds.reverse dflt := by
    intro n
    rw [Option.isSome_iff_exists]
    exact exists_congr (fun v => k3 n v)
  have hget : ∀ n, get? (fromKwargs c kw).1 n = if (get? c.params n).isSome then (get? kw n).or (get? c.params n) else none := by
    intro n
    simp only [fromKwargs]
    have hf : get? (kw.filter (fun p => (get? c.params p.1).isSome)).reverse n =
        if (get? c.params n).isSome then get? kw n else none := by
      rw [get?_reverse, get?_filter (q := fun n => (get? c.params n).isSome)]
      exact List.Nodup.sublist (List.filter_sublist.map Prod.fst) hkw
    rw [get?_update, hf, get?_update, get?_reverse k1]
    cases hg : get? c.params n <;> simp [get?]
  refine ⟨c, hc, ?_, ?_, ?_⟩
  · intro n v
    rw [hget]
    cases hg : get? c.params n with
    | none =>
      simp only [Option.isSome_none, Bool.false_eq_true, if_false]
      constructor
      · intro h; cases h
      · rintro ⟨dflt, hd, _⟩
        rw [← k3, hg] at hd
        cases hd
    | some w =>
      simp only [Option.isSome_some, if_true]
      constructor
      · intro h
        refine ⟨w, (k3 n w).1 hg, ?_⟩
        cases hk : get? kw n with
        | none =>
          rw [hk] at h
          simp only [Option.none_or, Option.some.injEq] at h
          exact Or.inr ⟨rfl, h.symm⟩
        | some u =>
          rw [hk] at h
          simp only [Option.some_or] at h
          exact Or.inl h
      · rintro ⟨dflt, hd, h | ⟨h, rfl⟩⟩
        · rw [h]; rfl
        · rw [h, Option.none_or]
          rw [← k3, hg] at hd
          exact hd
  · intro n v
    simp only [fromKwargs, List.mem_filter, Bool.not_eq_true', ← hdecl]
    cases (get? c.params n) <;> simp
  · simp only [fromKwargs]
    exact List.filter_sublist

/-- **C52** (negation, tuples as defaults): a class declares a parameter with a tuple as default, another class inherits it
without declaring it again, the call does not pass it: the parameter has the first element of the tuple. -/
theorem C52_tuple_default_fails (n : String) (v : PyVal) (l : List PyVal) (doc : String) :
    Spec.Default n [.seq [], .seq [(n, [.tup (v :: l), .str doc])]] (.tup (v :: l)) ∧
    ∃ c, genChain [.seq [(n, [.tup (v :: l), .str doc])], .seq []] = .ok c ∧ get? (fromKwargs c []).1 n = some v := by
  refine ⟨.there _ _ _ rfl (.here _ _ (.tup [.tup (v :: l), .str doc]) _ ?_ (.tuple _ _)), ?_⟩
  · simp [PDecl.toDict, update, Py.set, get?]
  · have h : (genChain [.seq [(n, [.tup (v :: l), .str doc])], .seq []]).toOption.map
        (fun c => get? (fromKwargs c []).1 n) = some (some v) := by
      simp [genChain, genParams, genDicts, genDict, genOne, PDecl.toDict, update, Py.set, get?, bind, Except.bind,
        PyVal.truthy, fromKwargs, Except.toOption]
    cases hc : genChain [.seq [(n, [.tup (v :: l), .str doc])], .seq []] with
    | error e => rw [hc] at h; simp [Except.toOption] at h
    | ok c => rw [hc] at h; exact ⟨c, rfl, by simpa [Except.toOption] using h⟩

/-- the default `(1, 2)` becomes `1` in a derived class -/
example : (genChain [.seq [("w", [.tup [.int 1, .int 2], .str "weights"])], .seq []]).toOption.map
    (fun c => get? (fromKwargs c []).1 "w") = some (some (.int 1)) := rfl

/-- The order in which the caller writes the keywords is irrelevant for the parameters. -/
theorem C52_order (c : PCls) (kw kw' : Dict String PyVal) (hkw : (keys kw).Nodup) (hp : kw.Perm kw') (n : String) :
    get? (fromKwargs c kw).1 n = get? (fromKwargs c kw').1 n := by
  have hkw' : (keys kw').Nodup := (hp.map Prod.fst).nodup_iff.1 hkw
  have key : ∀ (l : Dict String PyVal), (keys l).Nodup →
      get? (kw.filter (fun p => (get? c.params p.1).isSome)).reverse n =
      get? (kw'.filter (fun p => (get? c.params p.1).isSome)).reverse n := by
    intro _ _
    rw [get?_reverse, get?_reverse, get?_filter (q := fun n => (get? c.params n).isSome),
      get?_filter (q := fun n => (get? c.params n).isSome)]
    · split
      · cases h : get? kw n with
        | some v => exact (mem_get?_of_nodup hkw' (hp.mem_iff.1 (get?_eq_some_mem h))).symm
        | none =>
          symm
          rw [get?_eq_none_iff] at *
          intro hm
          exact h ((hp.map Prod.fst).mem_iff.2 hm)
      · rfl
    · exact List.Nodup.sublist (List.filter_sublist.map Prod.fst) hkw'
    · exact List.Nodup.sublist (List.filter_sublist.map Prod.fst) hkw
  simp only [fromKwargs]
  rw [get?_update, get?_update _ (kw'.filter _), key [] (by simp [keys])]

/-- `stochf` and its subclass `stochastic`, which adds a parameter, called with a declared and an undeclared keyword. -/
def exDecls : List PDecl :=
  [.seq [("period", [.int 14, .str "Period"]), ("pfast", [.int 3, .str "Fast"]), ("_ma", [.obj 1])],
   .seq [("pslow", [.int 3, .str "Slow"]), ("period", [.int 10])]]

example : (∀ d ∈ exDecls, d.Ok) ∧ (∀ d ∈ exDecls, d.NoTuple) := by
  have h1 : (PDecl.seq [("period", [.int 14, .str "Period"]), ("pfast", [.int 3, .str "Fast"]), ("_ma", [.obj 1])]).toDict =
    [("period", .tup [.int 14, .str "Period"]), ("pfast", .tup [.int 3, .str "Fast"]), ("_ma", .tup [.obj 1])] := rfl
  have h2 : (PDecl.seq [("pslow", [.int 3, .str "Slow"]), ("period", [.int 10])]).toDict =
    [("pslow", .tup [.int 3, .str "Slow"]), ("period", .tup [.int 10])] := rfl
  constructor
  · intro d hd
    simp only [exDecls, List.mem_cons, List.not_mem_nil, or_false] at hd
    rcases hd with rfl | rfl
    · refine ⟨by rw [h1]; simp [keys], ?_⟩
      rw [h1]
      intro p hp
      simp only [List.mem_cons, List.not_mem_nil, or_false] at hp
      rcases hp with rfl | rfl | rfl <;> exact ⟨_, .tuple _ _⟩
    · refine ⟨by rw [h2]; simp [keys], ?_⟩
      rw [h2]
      intro p hp
      simp only [List.mem_cons, List.not_mem_nil, or_false] at hp
      rcases hp with rfl | rfl <;> exact ⟨_, .tuple _ _⟩
  · intro d hd
    simp only [exDecls, List.mem_cons, List.not_mem_nil, or_false] at hd
    rcases hd with rfl | rfl
    · intro p hp v hv
      rw [h1] at hp
      simp only [List.mem_cons, List.not_mem_nil, or_false] at hp
      rcases hp with rfl | rfl | rfl <;> cases hv with
        | plain _ h => simp [PyVal.isTup] at h
        | tuple => rfl
    · intro p hp v hv
      rw [h2] at hp
      simp only [List.mem_cons, List.not_mem_nil, or_false] at hp
      rcases hp with rfl | rfl <;> cases hv with
        | plain _ h => simp [PyVal.isTup] at h
        | tuple => rfl

example : (genChain exDecls).toOption.map (fun c => fromKwargs c [("foo", .int 7), ("pfast", .int 5)]) =
    some ([("period", .int 10), ("pfast", .int 5), ("_ma", .obj 1), ("pslow", .int 3)], [("foo", .int 7)]) := rfl

/-! ## C53 -/

/-- C53 is violated for the documentation: whatever the base class documents for a parameter `n`, a subclass which does
not declare the parameter again (whatever else it declares) has an empty documentation for it, and the parameter is no
longer marked as required. -/
theorem C53_doc_lost (b : PCls) (d : PDecl) (hd : d.Ok) (hk : (keys b.params).Nodup)
    (hb : ∀ p ∈ b.params, p.2.isTup = false) (n : String) (hn : n ∈ keys b.params)
    (hnew : get? d.toDict n = none) (c : PCls) (hc : genParams [b] d = .ok c) :
    get? c.info n = some ⟨.str "", .bool false⟩ := by
  -- information is only written for the names of the dictionary in question
  have pres : ∀ (pb : Dict String PInfo) (e : Dict String PyVal) (st st' : PState), get? e n = none →
      genDict pb st e = .ok st' → get? st'.info n = get? st.info n := by
    intro pb e
    induction e with
    | nil => intro st st' _ h; cases h; rfl
    | cons p e ih =>
      obtain ⟨m, pv⟩ := p
      intro st st' hm h
      by_cases hmn : m = n
      · subst hmn; simp [get?] at hm
      · simp only [get?, if_neg hmn] at hm
        simp only [genDict, bind, Except.bind] at h
        cases h1 : genOne pb st m pv with
        | error e => simp [h1] at h
        | ok st1 =>
          simp only [h1] at h
          rw [ih st1 st' hm h]
          simp only [genOne] at h1
          split at h1
          · cases h1
          · simp only [Except.ok.injEq] at h1
            rw [← h1]
            simp only []
            rw [get?_set, if_neg hmn]
  have base : ∀ (pb : Dict String PInfo) (e : Dict String PyVal) (st st' : PState), (keys e).Nodup →
      (∀ p ∈ e, p.2.isTup = false) → n ∈ keys e → get? st.params n = none →
      genDict pb st e = .ok st' → get? st'.info n = some ⟨.str "", .bool false⟩ := by
    intro pb e
    induction e with
    | nil => intro _ _ _ _ h; simp [keys] at h
    | cons p e ih =>
      obtain ⟨m, pv⟩ := p
      intro st st' hnd hnt hm hp h
      simp only [keys, List.map_cons, List.nodup_cons] at hnd
      simp only [genDict, bind, Except.bind] at h
      have hpt := hnt (m, pv) (by simp)
      cases h1 : genOne pb st m pv with
      | error e => simp [h1] at h
      | ok st1 =>
        simp only [h1] at h
        by_cases hmn : m = n
        · subst hmn
          rw [pres pb e st1 st' (get?_eq_none_iff.2 hnd.1) h]
          cases pv <;> simp [PyVal.isTup] at hpt <;>
            simp only [genOne, List.headD, List.drop_nil, hp, Option.isSome_none, Bool.false_eq_true, if_false,
              Except.ok.injEq] at h1 <;> rw [← h1] <;> simp only [get?_set, if_true]
        · have hm' : n ∈ keys e := by
            simp only [keys, List.map_cons, List.mem_cons] at hm
            exact hm.resolve_left (fun e => hmn e.symm)
          refine ih st1 st' hnd.2 (fun q hq => hnt q (by simp [hq])) hm' ?_ h
          rw [genOne_params (declares_self hpt) h1, get?_set, if_neg hmn]
          exact hp
  unfold genParams at hc
  simp only [List.map_cons, List.map_nil, List.cons_append, List.nil_append, genDicts, bind, Except.bind] at hc
  cases h1 : genDict (update [] (List.flatMap (fun b => b.info) [b])) ⟨[], []⟩ b.params with
  | error e => rw [h1] at hc; cases hc
  | ok s1 =>
    simp only [h1] at hc
    cases h2 : genDict (update [] (List.flatMap (fun b => b.info) [b])) s1 d.toDict with
    | error e => rw [h2] at hc; cases hc
    | ok s2 =>
      simp only [h2, Except.ok.injEq] at hc
      subst hc
      rw [pres _ _ _ _ hnew h2]
      exact base _ _ _ _ hk hb hn rfl h1

/-- C53 is violated for tuples: a default which is a tuple is replaced by its first component in a subclass which does
not even mention the parameter, and an empty tuple makes the creation of the subclass fail. -/
theorem C53_tuple_default (info : Dict String PInfo) (n : String) (l : List PyVal) :
    (∀ v, l.head? = some v → ∃ c, genParams [⟨[(n, .tup l)], info⟩] (.dict []) = .ok c ∧ get? c.params n = some v) ∧
    (l = [] → genParams [⟨[(n, .tup l)], info⟩] (.dict []) = .error .valueError) := by
  constructor
  · intro v hv
    cases l with
    | nil => cases hv
    | cons w l =>
      cases hv
      refine ⟨_, rfl, ?_⟩
      simp [get?, Py.set]
  · rintro rfl
    rfl

/-- C53, what holds: the default of a parameter which is not declared again is inherited unchanged if it is not a
tuple.  Missing: the documentation and the required flag (`C53_doc_lost`) and tuples (`C53_tuple_default`). -/
theorem C53_default_partial (b : PCls) (d : PDecl) (hd : d.Ok) (hk : (keys b.params).Nodup)
    (hb : ∀ p ∈ b.params, p.2.isTup = false) (n : String) (hnew : get? d.toDict n = none) :
    ∃ c, genParams [b] d = .ok c ∧ get? c.params n = get? b.params n := by
  obtain ⟨c, hc, _, _, h⟩ := genParams_one b d hd hk hb
  exact ⟨c, hc, h n hnew⟩

/-- The documentation of a parameter of the class itself is kept, in both orders of documentation and required flag. -/
theorem C53_own_doc_partial (n doc : String) (v : PyVal) (hdoc : doc ≠ "") (r : Bool) :
    (genParams [] (.seq [(n, [v, .str doc])])).toOption.map (fun c => get? c.info n) =
      some (some ⟨.str doc, .bool false⟩) ∧
    (genParams [] (.seq [(n, [v, .str doc, .bool r])])).toOption.map (fun c => get? c.info n) =
      some (some ⟨.str doc, .bool r⟩) ∧
    (genParams [] (.seq [(n, [v, .bool r, .str doc])])).toOption.map (fun c => get? c.info n) =
      some (some ⟨.str doc, .bool r⟩) := by
  have hd : (doc == "") = false := by simpa using hdoc
  refine ⟨?_, ?_, ?_⟩ <;>
    simp [genParams, genDicts, genDict, genOne, PDecl.toDict, update, Py.set, get?, bind, Except.bind, Except.toOption,
      PyVal.truthy, hd]

/-- `atr` inherits `_period` from `truerange`, with an empty documentation. -/
example : (genChain [.seq [("_period", [.int 1, .str "Period for high/low vs close for truerange calc"])],
      .seq [("period", [.int 14, .str "Period to consider"])]]).toOption.map (fun c => c.info) =
    some [("_period", ⟨.str "", .bool false⟩), ("period", ⟨.str "Period to consider", .bool false⟩)] := rfl

end Bta.Meta
