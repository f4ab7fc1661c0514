import Verif.Meta.Query

/-!
# Modules in which indicators are defined (C99)
-/

set_option linter.unusedSectionVars false
set_option linter.unusedVariables false

open Bta Bta.Meta Py

namespace Spec

/-- the names which a definition of an indicator gives to the class: the aliases and its own -/
def named : MStmt → List String
  | .indicator name als _ => name :: als
  | _ => []

/-- the names which a statement binds, and to what -/
def binds : MStmt → List (String × ℕ)
  | .bind n v => [(n, v)]
  | .indicator name als c => als.map (fun a => (a, c)) ++ [(name, c)]
  | _ => []

/-- the last of some bindings of a name -/
def lastOf (l : List (String × ℕ)) (n : String) : Option ℕ := ((l.filter (fun p => decide (p.1 = n))).getLast?).map Prod.snd

/-- a module which does not mention `__all__` -/
def NoAll (p : List MStmt) : Prop := ∀ s ∈ p, (∀ l, s ≠ .allList l) ∧ ∀ l, s ≠ .allTuple l

end Spec

namespace Bta.Meta

theorem lastOf_snoc (l : List (String × ℕ)) (n m : String) (v : ℕ) :
    Spec.lastOf (l ++ [(m, v)]) n = if m = n then some v else Spec.lastOf l n := by
  unfold Spec.lastOf
  rw [List.filter_append]
  by_cases h : m = n
  · simp [h]
  · simp [h]

theorem lastOf_isSome {l : List (String × ℕ)} {n : String} : (Spec.lastOf l n).isSome ↔ n ∈ l.map Prod.fst := by
  induction l using List.reverseRecOn with
  | nil => simp [Spec.lastOf]
  | append_singleton l p ih =>
    rw [lastOf_snoc]
    by_cases h : p.1 = n
    · simp [h]
    · rw [if_neg h, ih]; simp [Ne.symm h]

/-- what a module which does not mention `__all__` holds -/
structure ModInv (p : List MStmt) (m : Module) : Prop where
  ns : ∀ n, get? m.ns n = Spec.lastOf (p.flatMap Spec.binds) n
  nodup : (keys m.ns).Nodup
  all : m.all = if p.flatMap Spec.named = [] then .missing else .list (p.flatMap Spec.named)

theorem addAliases (c : ℕ) (als : List String) (m : Module) (l : List String) (hm : m.all = .list l) (hd : (keys m.ns).Nodup) :
    ∃ m', als.foldlM (Module.addAlias c) m = .ok m' ∧ m'.all = .list (l ++ als) ∧ (keys m'.ns).Nodup ∧
      ∀ (b : List (String × ℕ)), (∀ n, get? m.ns n = Spec.lastOf b n) →
        ∀ n, get? m'.ns n = Spec.lastOf (b ++ als.map (fun a => (a, c))) n := by
  induction als generalizing m l with
  | nil => exact ⟨m, rfl, by simp [hm], hd, fun b hb => by simpa using hb⟩
  | cons a als ih =>
    obtain ⟨m', h1, h2, h3, h4⟩ := ih ⟨Py.set m.ns a c, .list (l ++ [a])⟩ (l ++ [a]) rfl (nodup_keys_set hd _ _)
    refine ⟨m', ?_, by rw [h2]; simp, h3, fun b hb n => ?_⟩
    · rw [List.foldlM_cons]
      have : Module.addAlias c m a = .ok ⟨Py.set m.ns a c, .list (l ++ [a])⟩ := by
        unfold Module.addAlias Module.export
        simp only []
        rw [hm]
      rw [this]
      exact h1
    · rw [h4 (b ++ [(a, c)]) (fun n => by rw [lastOf_snoc]; simp only []; rw [get?_set, hb]) n]
      simp

theorem define_ok (m : Module) (l : List String) (hm : m.all = .list l) (hd : (keys m.ns).Nodup) (name : String) (als : List String)
    (c : ℕ) : ∃ m', m.define name als c = .ok m' ∧ m'.all = .list (l ++ name :: als) ∧ (keys m'.ns).Nodup ∧
      ∀ (b : List (String × ℕ)), (∀ n, get? m.ns n = Spec.lastOf b n) →
        ∀ n, get? m'.ns n = Spec.lastOf (b ++ (als.map (fun a => (a, c)) ++ [(name, c)])) n := by
  obtain ⟨m', h1, h2, h3, h4⟩ := addAliases c als ⟨m.ns, .list (l ++ [name])⟩ (l ++ [name]) rfl hd
  refine ⟨{ m' with ns := Py.set m'.ns name c }, ?_, by simp [h2], nodup_keys_set h3 _ _, fun b hb n => ?_⟩
  · unfold Module.define
    have e1 : (if m.all = .missing then { m with all := .list [] } else m) = m := by rw [hm]; simp
    have e2 : m.export name = .ok ⟨m.ns, .list (l ++ [name])⟩ := by unfold Module.export; rw [hm]
    rw [e1]
    simp only []
    rw [e2]
    show (do let m ← List.foldlM (Module.addAlias c) ⟨m.ns, .list (l ++ [name])⟩ als; pure _) = _
    rw [h1]
    rfl
  · show get? (Py.set m'.ns name c) n = _
    rw [get?_set, ← List.append_assoc, lastOf_snoc, h4 b hb]

theorem modInv (p : List MStmt) (hp : Spec.NoAll p) : ∃ m, Module.load p = .ok m ∧ ModInv p m := by
  induction p using List.reverseRecOn with
  | nil => exact ⟨_, rfl, fun n => rfl, by simp [keys], rfl⟩
  | append_singleton p s ih =>
    obtain ⟨m, h1, h2⟩ := ih fun t ht => hp t (by simp [ht])
    have e : Module.load (p ++ [s]) = m.exec s := by
      have h1' : List.foldlM Module.exec ⟨[], .missing⟩ p = .ok m := h1
      unfold Module.load
      rw [List.foldlM_append, h1']
      show List.foldlM Module.exec m [s] = _
      rw [List.foldlM_cons]
      cases m.exec s <;> rfl
    rw [e]
    cases s with
    | bind n v =>
      refine ⟨_, rfl, fun k => ?_, nodup_keys_set h2.nodup _ _, ?_⟩
      · show get? (Py.set m.ns n v) k = _
        rw [get?_set, h2.ns, List.flatMap_append]
        show _ = Spec.lastOf (_ ++ ([(n, v)] ++ [])) k
        rw [List.append_nil, lastOf_snoc]
      · show m.all = _
        rw [h2.all, List.flatMap_append]
        rw [show [MStmt.bind n v].flatMap Spec.named = [] from rfl, List.append_nil]
    | allList l => exact absurd rfl ((hp (.allList l) (by simp)).1 l)
    | allTuple l => exact absurd rfl ((hp (.allTuple l) (by simp)).2 l)
    | indicator name als c =>
      show ∃ m', m.define name als c = .ok m' ∧ _
      have hm0 : m.define name als c = (⟨m.ns, .list (p.flatMap Spec.named)⟩ : Module).define name als c := by
        have hall := h2.all
        obtain ⟨ns, all⟩ := m
        simp only at hall
        subst hall
        unfold Module.define
        by_cases he : p.flatMap Spec.named = []
        · simp [he]
        · simp [he]
      rw [hm0]
      obtain ⟨m', g1, g2, g3, g4⟩ := define_ok ⟨m.ns, .list (p.flatMap Spec.named)⟩ _ rfl h2.nodup name als c
      refine ⟨m', g1, fun n => ?_, g3, ?_⟩
      · rw [g4 _ h2.ns n, List.flatMap_append]
        simp [Spec.binds]
      · rw [g2, List.flatMap_append]
        simp [Spec.named]

/-- **C99** (names): a module which does not mention `__all__` is loaded without error, and each name stands for what the
last statement which binds it gives - a class for its name and for each alias. -/
theorem C99_names (p : List MStmt) (hp : Spec.NoAll p) : ∃ m, Module.load p = .ok m ∧
    ∀ n, get? m.ns n = Spec.lastOf (p.flatMap Spec.binds) n := by
  obtain ⟨m, h1, h2⟩ := modInv p hp
  exact ⟨m, h1, h2.ns⟩

theorem named_bound {p : List MStmt} {n : String} (h : n ∈ p.flatMap Spec.named) : n ∈ (p.flatMap Spec.binds).map Prod.fst := by
  rw [List.mem_flatMap] at h
  obtain ⟨s, hs, hn⟩ := h
  rw [List.map_flatMap, List.mem_flatMap]
  refine ⟨s, hs, ?_⟩
  cases s with
  | indicator name als c =>
    rcases List.mem_cons.mp hn with rfl | hn
    · simp [Spec.binds]
    · simp only [Spec.binds, List.map_append, List.map_map, List.mem_append, List.mem_map]
      exact .inl ⟨n, hn, rfl⟩
  | _ => cases hn

theorem mapM_get (f : String → Option ℕ) (l : List String) (hl : ∀ n ∈ l, (f n).isSome) :
    ∃ e, l.mapM (fun n => match f n with
      | some v => (.ok (n, v) : Except Err (String × ℕ))
      | none => .error .attributeError) = .ok e ∧ ∀ n v, (n, v) ∈ e ↔ n ∈ l ∧ f n = some v := by
  induction l with
  | nil => exact ⟨[], rfl, by simp⟩
  | cons a l ih =>
    obtain ⟨e, h1, h2⟩ := ih fun n hn => hl n (by simp [hn])
    obtain ⟨v, hv⟩ := Option.isSome_iff_exists.mp (hl a (by simp))
    refine ⟨(a, v) :: e, ?_, fun n w => ?_⟩
    · rw [List.mapM_cons, hv, h1]; rfl
    · rw [List.mem_cons, h2, List.mem_cons, Prod.mk.injEq]
      constructor
      · rintro (⟨rfl, rfl⟩ | ⟨h3, h4⟩)
        · exact ⟨.inl rfl, hv⟩
        · exact ⟨.inr h3, h4⟩
      · rintro ⟨rfl | h3, h4⟩
        · rw [hv] at h4; injection h4 with h4; exact .inl ⟨rfl, h4.symm⟩
        · exact .inr ⟨h3, h4⟩

/-- **C99** (indicators are exported): `from module import *` on a module which does not mention `__all__` always works, and gives
each indicator defined there under its name and under each of its aliases (the class bound last, if a name is used again). -/
theorem C99_exported (p : List MStmt) (hp : Spec.NoAll p) : ∃ m e, Module.load p = .ok m ∧ m.star = .ok e ∧
    ∀ s ∈ p, ∀ n ∈ Spec.named s, ∃ v, (n, v) ∈ e ∧ Spec.lastOf (p.flatMap Spec.binds) n = some v := by
  obtain ⟨m, h1, h2⟩ := modInv p hp
  by_cases he : p.flatMap Spec.named = []
  · refine ⟨m, m.ns.filter (fun p => !isPrivate p.1), h1, ?_, fun s hs n hn => ?_⟩
    · unfold Module.star; rw [h2.all, if_pos he]
    · have : n ∈ p.flatMap Spec.named := List.mem_flatMap.mpr ⟨s, hs, hn⟩
      rw [he] at this; cases this
  · obtain ⟨e, g1, g2⟩ := mapM_get (get? m.ns) (p.flatMap Spec.named) fun n hn => by
      rw [h2.ns, lastOf_isSome]; exact named_bound hn
    refine ⟨m, e, h1, ?_, fun s hs n hn => ?_⟩
    · unfold Module.star; rw [h2.all, if_neg he]; exact g1
    · have hn' : n ∈ p.flatMap Spec.named := List.mem_flatMap.mpr ⟨s, hs, hn⟩
      obtain ⟨v, hv⟩ := Option.isSome_iff_exists.mp (lastOf_isSome.mpr (named_bound hn'))
      exact ⟨v, (g2 n v).mpr ⟨hn', by rw [h2.ns, hv]⟩, hv⟩

/-- **C99** (everything else, without indicators): such a module without any indicator exports all names which do not start with
an underscore. -/
theorem C99_others_partial (p : List MStmt) (hp : Spec.NoAll p) (hi : ∀ s ∈ p, Spec.named s = []) :
    ∃ m e, Module.load p = .ok m ∧ m.star = .ok e ∧
      ∀ n v, (n, v) ∈ e ↔ Spec.lastOf (p.flatMap Spec.binds) n = some v ∧ n.toList.head? ≠ some '_' := by
  obtain ⟨m, h1, h2⟩ := modInv p hp
  have he : p.flatMap Spec.named = [] := by rw [List.flatMap_eq_nil_iff]; exact hi
  refine ⟨m, m.ns.filter (fun p => !isPrivate p.1), h1, ?_, fun n v => ?_⟩
  · unfold Module.star; rw [h2.all, if_pos he]
  · rw [List.mem_filter, ← h2.ns]
    have hpr : (!isPrivate n) = true ↔ n.toList.head? ≠ some '_' := by
      unfold isPrivate
      rw [Bool.not_eq_true', Bool.eq_false_iff]
      simp
    simp only [hpr]
    constructor
    · rintro ⟨h3, h4⟩; exact ⟨mem_get?_of_nodup h2.nodup h3, h4⟩
    · rintro ⟨h3, h4⟩; exact ⟨get?_eq_some_mem h3, h4⟩

/-- **C99** fails for everything else in a module with an indicator: the definition of the indicator gives the module an
`__all__`, and from then on only indicators are exported - a function, a constant or another class of the module is not. -/
theorem C99_others_lost (p : List MStmt) (hp : Spec.NoAll p) (hi : ∃ s ∈ p, Spec.named s ≠ []) (n : String)
    (hn : ∀ s ∈ p, n ∉ Spec.named s) : ∃ m e, Module.load p = .ok m ∧ m.star = .ok e ∧ ∀ v, (n, v) ∉ e := by
  obtain ⟨m, h1, h2⟩ := modInv p hp
  have he : p.flatMap Spec.named ≠ [] := by
    obtain ⟨s, hs, h⟩ := hi
    intro h0
    exact h (List.flatMap_eq_nil_iff.mp h0 s hs)
  obtain ⟨e, g1, g2⟩ := mapM_get (get? m.ns) (p.flatMap Spec.named) fun n hn => by
    rw [h2.ns, lastOf_isSome]; exact named_bound hn
  refine ⟨m, e, h1, ?_, fun v hv => ?_⟩
  · unfold Module.star; rw [h2.all, if_neg he]; exact g1
  · obtain ⟨s, hs, h⟩ := List.mem_flatMap.mp ((g2 n v).mp hv).1
    exact hn s hs h

/-- **C99** fails for a module whose `__all__` is a tuple: the definition of an indicator in it raises AttributeError, whatever the
module did before. -/
theorem C99_tuple (p q : List MStmt) (l : List String) (hq : ∀ s ∈ q, ∃ n v, s = .bind n v) (name : String) (als : List String)
    (c : ℕ) {m : Module} (hp : Module.load p = .ok m) :
    Module.load (p ++ .allTuple l :: q ++ [.indicator name als c]) = .error .attributeError := by
  have hp' : List.foldlM Module.exec ⟨[], .missing⟩ p = .ok m := hp
  unfold Module.load
  rw [List.append_assoc, List.foldlM_append, hp']
  show List.foldlM Module.exec m (.allTuple l :: (q ++ [.indicator name als c])) = _
  rw [List.foldlM_cons]
  show List.foldlM Module.exec { m with all := .tuple l } (q ++ [.indicator name als c]) = _
  have hgo : ∀ (q : List MStmt) (m : Module), (∀ s ∈ q, ∃ n v, s = .bind n v) → m.all = .tuple l →
      ∃ m', List.foldlM Module.exec m q = .ok m' ∧ m'.all = .tuple l := by
    intro q
    induction q with
    | nil => intro m _ hm; exact ⟨m, rfl, hm⟩
    | cons s q ih =>
      intro m hs hm
      obtain ⟨n, v, rfl⟩ := hs s (by simp)
      rw [List.foldlM_cons]
      exact ih { m with ns := Py.set m.ns n v } (fun t ht => hs t (by simp [ht])) hm
  obtain ⟨m', h1, h2⟩ := hgo q { m with all := .tuple l } hq rfl
  rw [List.foldlM_append, h1]
  show List.foldlM Module.exec m' [.indicator name als c] = _
  rw [List.foldlM_cons]
  have : m'.exec (.indicator name als c) = .error .attributeError := by
    show m'.define name als c = _
    unfold Module.define
    rw [h2]
    simp only [reduceCtorEq, if_false]
    have : m'.export name = .error .attributeError := by unfold Module.export; rw [h2]
    rw [this]
    rfl
  rw [this]
  rfl

/-! Modules which meet the hypotheses. -/

/-- a helper function, an indicator with an alias, another helper -/
def userModule : List MStmt := [.bind "helper" 1, .indicator "mine" ["MINE"] 2, .bind "CONST" 3]

theorem userModule_noAll : Spec.NoAll userModule := by
  intro s hs
  simp only [userModule, List.mem_cons, List.not_mem_nil, or_false] at hs
  rcases hs with rfl | rfl | rfl <;> simp

example : ∃ m e, Module.load userModule = .ok m ∧ m.star = .ok e ∧ ∀ v, ("helper", v) ∉ e :=
  C99_others_lost _ userModule_noAll ⟨.indicator "mine" ["MINE"] 2, by simp [userModule], by simp [Spec.named]⟩ _
    (by simp [userModule, Spec.named])

example : (Module.load userModule).bind Module.star = .ok [("mine", 2), ("MINE", 2)] := by decide +kernel

/-- without the indicator the helpers are exported -/
example : (Module.load [.bind "helper" 1, .bind "CONST" 3]).bind Module.star = .ok [("helper", 1), ("CONST", 3)] := by decide +kernel

example : Module.load [.allTuple ["mine"], .bind "helper" 1, .indicator "mine" [] 2] = .error .attributeError :=
  C99_tuple [] [.bind "helper" 1] ["mine"] (by simp) "mine" [] 2 rfl

end Bta.Meta
