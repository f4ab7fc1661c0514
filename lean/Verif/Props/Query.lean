import Verif.Meta.Query

/-!
# Queries on the library (C98) and modules with indicators (C99)
-/

set_option linter.unusedSectionVars false
set_option linter.unusedVariables false

open Bta Bta.Meta Py

namespace Spec

/-- A class which the library lists: its module is a submodule of a subpackage of `btalib`, and its name does not start with
an underscore. -/
def Listed (s : ClassStmt) : Prop :=
  s.modsplit.head? = some "btalib" ∧ 3 ≤ s.modsplit.length ∧ s.name.toList.head? ≠ some '_'

instance (s : ClassStmt) : Decidable (Listed s) := by unfold Listed; infer_instance

/-- The class number `i` of the history is listed, and `s` is its definition. -/
def Registered (h : List ClassStmt) (i : ℕ) (s : ClassStmt) : Prop := h[i]? = some s ∧ Listed s

/-- The members of a group: the listed classes in the order of creation, each as often as its definition names the group. -/
def members (h : List ClassStmt) (k : String) : List ℕ :=
  h.zipIdx.flatMap (fun p => if Listed p.1 then List.replicate (p.1.group.count k) p.2 else [])

/-- The class `i` is the one which has the name `n`: the last listed class defined with it. -/
def Bears (h : List ClassStmt) (n : String) (i : ℕ) : Prop :=
  (∃ s, Registered h i s ∧ s.name = n) ∧ ∀ j s, Registered h j s → s.name = n → j ≤ i

end Spec

namespace Bta.Meta

theorem toRegister_iff (s : ClassStmt) : s.toRegister = true ↔ Spec.Listed s := by
  unfold ClassStmt.toRegister Spec.Listed isPrivate
  simp only [Bool.and_eq_true, beq_iff_eq, decide_eq_true_eq, Bool.not_eq_true', and_assoc]
  constructor
  · rintro ⟨h1, h2, h3⟩
    exact ⟨h1, by omega, fun h => by rw [h] at h3; simp at h3⟩
  · rintro ⟨h1, h2, h3⟩
    refine ⟨h1, by omega, ?_⟩
    rw [Bool.eq_false_iff]
    simpa using h3

theorem registered_snoc {h : List ClassStmt} {s t : ClassStmt} {i : ℕ} :
    Spec.Registered (h ++ [s]) i t ↔ Spec.Registered h i t ∨ (i = h.length ∧ t = s ∧ Spec.Listed s) := by
  unfold Spec.Registered
  by_cases hi : i < h.length
  · rw [List.getElem?_append_left hi]
    constructor
    · exact .inl
    · rintro (h | ⟨h, _⟩)
      · exact h
      · omega
  · rw [List.getElem?_append_right (by omega)]
    constructor
    · rintro ⟨h1, h2⟩
      obtain ⟨h3, h4⟩ := List.getElem?_eq_some_iff.mp h1
      rw [List.getElem_singleton] at h4
      rw [List.length_singleton] at h3
      exact .inr ⟨by omega, h4.symm, h4 ▸ h2⟩
    · rintro (⟨h, _⟩ | ⟨rfl, rfl, h⟩)
      · rw [List.getElem?_eq_none (by omega)] at h; cases h
      · simp [h]

theorem registered_lt {h : List ClassStmt} {s : ClassStmt} {i : ℕ} (hr : Spec.Registered h i s) : i < h.length :=
  (List.getElem?_eq_some_iff.mp hr.1).1

theorem members_snoc (h : List ClassStmt) (s : ClassStmt) (k : String) :
    Spec.members (h ++ [s]) k = Spec.members h k ++ if Spec.Listed s then List.replicate (s.group.count k) h.length else [] := by
  unfold Spec.members
  rw [List.zipIdx_append, List.flatMap_append]
  simp

theorem grpAppend_get (c : ℕ) (l : List String) (d : Dict String (List ℕ)) (k : String) :
    (get? (l.foldl (grpAppend c) d) k).getD [] = (get? d k).getD [] ++ List.replicate (l.count k) c := by
  induction l generalizing d with
  | nil => simp
  | cons a l ih =>
    rw [List.foldl_cons, ih]
    unfold grpAppend
    rw [get?_set, List.count_cons]
    by_cases h : a = k
    · subst h; simp [List.replicate_succ]
    · simp [h]

theorem grpAppend_keys (c : ℕ) (l : List String) (d : Dict String (List ℕ)) (hd : (keys d).Nodup) :
    (keys (l.foldl (grpAppend c) d)).Nodup ∧
    keys (l.foldl (grpAppend c) d) = keys d ++ (fromkeys l).filter (fun k => decide (k ∉ keys d)) := by
  induction l generalizing d with
  | nil => simp [fromkeys, hd]
  | cons a l ih =>
    rw [List.foldl_cons]
    have h1 : (keys (grpAppend c d a)).Nodup := nodup_keys_set hd _ _
    refine ⟨(ih _ h1).1, ?_⟩
    rw [(ih _ h1).2]
    unfold grpAppend
    rw [keys_set]
    by_cases h : a ∈ keys d
    · rw [if_pos h]
      simp only [fromkeys, List.filter_cons, h, not_true_eq_false, decide_false, Bool.false_eq_true, if_false]
      congr 1
      rw [List.filter_filter]
      refine List.filter_congr fun x hx => ?_
      by_cases hxa : x = a
      · subst hxa; simp [h]
      · simp [hxa]
    · rw [if_neg h]
      simp only [fromkeys, List.filter_cons, h, not_false_eq_true, decide_true, if_true, List.append_assoc,
        List.singleton_append]
      congr 2
      rw [List.filter_filter]
      refine List.filter_congr fun x hx => ?_
      simp [not_or, Bool.and_comm]

/-- what the state holds after a history -/
structure RegInv (h : List ClassStmt) (g : Reg) : Prop where
  created : g.created = h.length
  nodup : (keys g.names).Nodup
  names : ∀ n i, get? g.names n = some i ↔ Spec.Bears h n i
  inds : ∀ i n, get? g.inds i = some n ↔ ∃ s, Spec.Registered h i s ∧ s.name = n
  gnodup : (keys g.grps).Nodup
  gkeys : keys g.grps = fromkeys ((h.filter (fun s => decide (Spec.Listed s))).flatMap (·.group))
  gmem : ∀ k, (get? g.grps k).getD [] = Spec.members h k

theorem bears_snoc {h : List ClassStmt} {s : ClassStmt} {n : String} {i : ℕ} :
    Spec.Bears (h ++ [s]) n i ↔
      if Spec.Listed s ∧ s.name = n then i = h.length else Spec.Bears h n i := by
  unfold Spec.Bears
  by_cases hs : Spec.Listed s ∧ s.name = n
  · rw [if_pos hs]
    constructor
    · rintro ⟨⟨t, ht, -⟩, h2⟩
      have := h2 h.length s (registered_snoc.mpr (.inr ⟨rfl, rfl, hs.1⟩)) hs.2
      have := registered_lt ht
      simp at this
      omega
    · rintro rfl
      refine ⟨⟨s, registered_snoc.mpr (.inr ⟨rfl, rfl, hs.1⟩), hs.2⟩, fun j t ht _ => ?_⟩
      have := registered_lt ht
      simp at this
      omega
  · rw [if_neg hs]
    constructor
    · rintro ⟨⟨t, ht, hn⟩, h2⟩
      refine ⟨?_, fun j u hu hun => h2 j u (registered_snoc.mpr (.inl hu)) hun⟩
      rcases registered_snoc.mp ht with ht | ⟨-, rfl, hl⟩
      · exact ⟨t, ht, hn⟩
      · exact absurd ⟨hl, hn⟩ hs
    · rintro ⟨⟨t, ht, hn⟩, h2⟩
      refine ⟨⟨t, registered_snoc.mpr (.inl ht), hn⟩, fun j u hu hun => ?_⟩
      rcases registered_snoc.mp hu with hu | ⟨-, rfl, hl⟩
      · exact h2 j u hu hun
      · exact absurd ⟨hl, hun⟩ hs

theorem regInv (h : List ClassStmt) : RegInv h (Reg.after h) := by
  induction h using List.reverseRecOn with
  | nil =>
    refine ⟨rfl, by simp [Reg.after, Reg.empty, keys], fun n i => ?_, fun i n => ?_, by simp [Reg.after, Reg.empty, keys], rfl,
      fun k => rfl⟩
    · simp [Reg.after, Reg.empty, get?, Spec.Bears, Spec.Registered]
    · simp [Reg.after, Reg.empty, get?, Spec.Registered]
  | append_singleton h s ih =>
    have e : Reg.after (h ++ [s]) = (Reg.after h).create s := by simp [Reg.after]
    rw [e]
    generalize Reg.after h = g at ih ⊢
    unfold Reg.create
    by_cases hs : s.toRegister = true
    · have hl := (toRegister_iff s).mp hs
      rw [if_pos hs]
      refine ⟨by simp [ih.created], nodup_keys_set ih.nodup _ _, fun n i => ?_, fun i n => ?_, (grpAppend_keys _ _ _ ih.gnodup).1,
        ?_, fun k => ?_⟩
      · show get? (Py.set g.names s.name g.created) n = _ ↔ _
        rw [get?_set, bears_snoc]
        by_cases hn : s.name = n
        · rw [if_pos hn, if_pos ⟨hl, hn⟩, ih.created]
          constructor
          · intro h; injection h with h; exact h.symm
          · rintro rfl; rfl
        · rw [if_neg hn, if_neg (fun h => hn h.2)]
          exact ih.names n i
      · show get? (Py.set g.inds g.created s.name) i = _ ↔ _
        rw [get?_set, ih.created]
        by_cases hi : h.length = i
        · rw [if_pos hi]
          constructor
          · intro hh; injection hh with hh
            exact ⟨s, registered_snoc.mpr (.inr ⟨hi.symm, rfl, hl⟩), hh⟩
          · rintro ⟨t, ht, hn⟩
            rcases registered_snoc.mp ht with ht | ⟨-, rfl, -⟩
            · have := registered_lt ht; omega
            · rw [hn]
        · rw [if_neg hi, ih.inds]
          constructor
          · rintro ⟨t, ht, hn⟩; exact ⟨t, registered_snoc.mpr (.inl ht), hn⟩
          · rintro ⟨t, ht, hn⟩
            rcases registered_snoc.mp ht with ht | ⟨hh, -⟩
            · exact ⟨t, ht, hn⟩
            · exact absurd hh.symm hi
      · show keys (s.group.foldl (grpAppend g.created) g.grps) = _
        rw [(grpAppend_keys _ _ _ ih.gnodup).2, ih.gkeys, List.filter_append, List.flatMap_append]
        rw [show [s].filter (fun s => decide (Spec.Listed s)) = [s] by simp [hl]]
        rw [fromkeys_append]
        simp only [List.flatMap_cons, List.flatMap_nil, List.append_nil]
        congr 1
        refine List.filter_congr fun x _ => ?_
        simp [mem_fromkeys]
      · show (get? (s.group.foldl (grpAppend g.created) g.grps) k).getD [] = _
        rw [grpAppend_get, ih.gmem, members_snoc, if_pos hl, ih.created]
    · have hl : ¬ Spec.Listed s := fun h => hs ((toRegister_iff s).mpr h)
      rw [if_neg hs]
      refine ⟨by simp [ih.created], ih.nodup, fun n i => ?_, fun i n => ?_, ih.gnodup, ?_, fun k => ?_⟩
      · rw [bears_snoc, if_neg (fun h => hl h.1)]; exact ih.names n i
      · rw [ih.inds]
        constructor
        · rintro ⟨t, ht, hn⟩; exact ⟨t, registered_snoc.mpr (.inl ht), hn⟩
        · rintro ⟨t, ht, hn⟩
          rcases registered_snoc.mp ht with ht | ⟨hh, -, hl'⟩
          · exact ⟨t, ht, hn⟩
          · exact absurd hl' hl
      · rw [ih.gkeys, List.filter_append, show [s].filter (fun s => decide (Spec.Listed s)) = [] by simp [hl], List.append_nil]
      · rw [ih.gmem, members_snoc, if_neg hl, List.append_nil]

theorem sorted_sortedNames (l : List String) : (sortedNames l).Pairwise (· ≤ ·) := List.pairwise_insertionSort _ _

theorem mem_sortedNames {l : List String} {n : String} : n ∈ sortedNames l ↔ n ∈ l := List.mem_insertionSort _

/-- **C98** (`get_ind_names`): the names of the listed classes, each once, in alphabetical order. -/
theorem C98_names (h : List ClassStmt) :
    (Reg.after h).getIndNames.Pairwise (· < ·) ∧
    ∀ n, n ∈ (Reg.after h).getIndNames ↔ ∃ i s, Spec.Registered h i s ∧ s.name = n := by
  have hi := regInv h
  constructor
  · have h1 := sorted_sortedNames (keys (Reg.after h).names)
    have h2 : (sortedNames (keys (Reg.after h).names)).Nodup := (List.perm_insertionSort _ _).nodup_iff.mpr hi.nodup
    exact (h1.and h2).imp fun h => lt_of_le_of_ne h.1 h.2
  · intro n
    unfold Reg.getIndNames
    rw [mem_sortedNames, mem_keys_iff]
    constructor
    · intro hs
      obtain ⟨i, hi'⟩ := Option.isSome_iff_exists.mp hs
      obtain ⟨⟨s, h1, h2⟩, -⟩ := (hi.names n i).mp hi'
      exact ⟨i, s, h1, h2⟩
    · rintro ⟨i, s, h1, h2⟩
      -- the last one
      classical
      obtain ⟨j, hj, hmax⟩ : ∃ j, (∃ s, Spec.Registered h j s ∧ s.name = n) ∧ ∀ k, (∃ s, Spec.Registered h k s ∧ s.name = n) → k ≤ j := by
        have hb : ∀ k, (∃ s, Spec.Registered h k s ∧ s.name = n) → k ≤ h.length := fun k ⟨s, hs, _⟩ => (registered_lt hs).le
        have hex : ∃ k, k ≤ h.length ∧ ∃ s, Spec.Registered h k s ∧ s.name = n := ⟨i, hb i ⟨s, h1, h2⟩, s, h1, h2⟩
        refine ⟨Nat.findGreatest (fun k => ∃ s, Spec.Registered h k s ∧ s.name = n) h.length, ?_, fun k hk => ?_⟩
        · exact Nat.findGreatest_spec (P := fun k => ∃ s, Spec.Registered h k s ∧ s.name = n) (hb i ⟨s, h1, h2⟩) ⟨s, h1, h2⟩
        · exact Nat.le_findGreatest (hb k hk) hk
      rw [(hi.names n j).mpr ⟨hj, fun k s hk hn => hmax k ⟨s, hk, hn⟩⟩]
      rfl

theorem keys_sort (d : Dict String ℕ) : keys (d.insertionSort (fun p q => p.1 ≤ q.1)) = sortedNames (keys d) := by
  unfold keys sortedNames
  exact List.map_insertionSort (fun p q : String × ℕ => p.1 ≤ q.1) (fun a b : String => a ≤ b) Prod.fst d
    fun a _ b _ => Iff.rfl

/-- **C98** (`get_ind_by_name`, `get_indicators`): the dictionary has the names in alphabetical order and gives for each the
class which bears it, i.e. the one defined last; `get_indicators` lists these classes in the same order. -/
theorem C98_by_name (h : List ClassStmt) :
    keys (Reg.after h).getIndByName = (Reg.after h).getIndNames ∧
    (∀ n i, get? (Reg.after h).getIndByName n = some i ↔ Spec.Bears h n i) ∧
    (Reg.after h).getIndicators = (Reg.after h).getIndByName.map Prod.snd := by
  have hi := regInv h
  have hk := keys_sort (Reg.after h).names
  have hnd : (keys (Reg.after h).getIndByName).Nodup := by
    unfold Reg.getIndByName
    rw [hk]
    exact (List.perm_insertionSort _ _).nodup_iff.mpr hi.nodup
  have hget : ∀ n i, get? (Reg.after h).getIndByName n = some i ↔ get? (Reg.after h).names n = some i := by
    intro n i
    have hm : ∀ p, p ∈ (Reg.after h).getIndByName ↔ p ∈ (Reg.after h).names := fun p => List.mem_insertionSort _
    constructor
    · intro h1; exact mem_get?_of_nodup hi.nodup ((hm _).mp (get?_eq_some_mem h1))
    · intro h1; exact mem_get?_of_nodup hnd ((hm _).mpr (get?_eq_some_mem h1))
  refine ⟨hk, fun n i => (hget n i).trans (hi.names n i), ?_⟩
  unfold Reg.getIndicators
  rw [← hk]
  show (keys (Reg.after h).getIndByName).filterMap _ = _
  have hgo : ∀ l : Dict String ℕ, (∀ p ∈ l, get? (Reg.after h).names p.1 = some p.2) →
      (keys l).filterMap (get? (Reg.after h).names) = l.map Prod.snd := by
    intro l hl
    induction l with
    | nil => rfl
    | cons p l ih =>
      show (p.1 :: keys l).filterMap _ = _
      rw [List.filterMap_cons, hl p (by simp)]
      simp only [List.map_cons]
      rw [ih fun q hq => hl q (by simp [hq])]
  refine hgo _ fun p hp => ?_
  exact mem_get?_of_nodup hi.nodup ((List.mem_insertionSort _).mp hp)

/-- **C98** (groups): `get_groups` gives each group named by a listed class once, in the order in which they were first named,
and `get_ind_by_group` gives for each of them the members, in the order of creation. -/
theorem C98_groups (h : List ClassStmt) :
    (Reg.after h).getGroups = fromkeys ((h.filter (fun s => decide (Spec.Listed s))).flatMap (·.group)) ∧
    keys (Reg.after h).getIndByGroup = (Reg.after h).getGroups ∧
    ∀ k ref, get? (Reg.after h).getIndByGroup k = some ref → (Reg.after h).deref ref = some (Spec.members h k) := by
  have hi := regInv h
  refine ⟨hi.gkeys, ?_, fun k ref hr => ?_⟩
  · unfold Reg.getIndByGroup Reg.getGroups keys
    rw [List.map_map]; rfl
  · have hm := get?_eq_some_mem hr
    unfold Reg.getIndByGroup at hm
    rw [List.mem_map] at hm
    obtain ⟨p, hp, he⟩ := hm
    have h1 : p.1 = k := congrArg Prod.fst he
    have h2 : p.1 = ref := congrArg Prod.snd he
    have hg : get? (Reg.after h).grps k = some p.2 := mem_get?_of_nodup hi.gnodup (by rw [← h1]; exact hp)
    unfold Reg.deref
    rw [← h2, h1, hg]
    have := hi.gmem k
    rw [hg] at this
    exact congrArg some this

theorem mem_members {h : List ClassStmt} {k : String} {i : ℕ} :
    i ∈ Spec.members h k ↔ ∃ s, Spec.Registered h i s ∧ k ∈ s.group := by
  unfold Spec.members Spec.Registered
  rw [List.mem_flatMap]
  constructor
  · rintro ⟨⟨s, j⟩, h1, h2⟩
    have h3 := List.mem_zipIdx_iff_getElem?.mp h1
    simp only at h2 h3
    by_cases hl : Spec.Listed s
    · rw [if_pos hl, List.mem_replicate] at h2
      obtain ⟨h4, rfl⟩ := h2
      exact ⟨s, ⟨h3, hl⟩, List.count_pos_iff.mp (by omega)⟩
    · rw [if_neg hl] at h2; cases h2
  · rintro ⟨s, ⟨h1, h2⟩, h3⟩
    refine ⟨(s, i), List.mem_zipIdx_iff_getElem?.mpr h1, ?_⟩
    simp only []
    rw [if_pos h2, List.mem_replicate]
    exact ⟨(List.count_pos_iff.mpr h3).ne', rfl⟩

theorem nameOf_mapM {h : List ClassStmt} (l : List ℕ) (hl : ∀ i ∈ l, ∃ s, Spec.Registered h i s) :
    ∃ ns, l.mapM (Reg.after h).nameOf = .ok ns ∧
      List.Forall₂ (fun i n => ∃ s, Spec.Registered h i s ∧ s.name = n) l ns := by
  induction l with
  | nil => exact ⟨[], rfl, .nil⟩
  | cons i l ih =>
    obtain ⟨ns, h1, h2⟩ := ih fun j hj => hl j (by simp [hj])
    obtain ⟨s, hs⟩ := hl i (by simp)
    refine ⟨s.name :: ns, ?_, .cons ⟨s, hs, rfl⟩ h2⟩
    have : (Reg.after h).nameOf i = .ok s.name := by
      unfold Reg.nameOf
      rw [((regInv h).inds i s.name).mpr ⟨s, hs, rfl⟩]
    rw [List.mapM_cons, this, h1]
    rfl

theorem mapM_pairs {α : Type} (f : String × List ℕ → Except Err α) (d : Dict String (List ℕ)) (P : String → List ℕ → α → Prop)
    (hf : ∀ p ∈ d, ∃ r, f p = .ok r ∧ P p.1 p.2 r) : ∃ e, d.mapM f = .ok e ∧ List.Forall₂ (fun p r => P p.1 p.2 r) d e := by
  induction d with
  | nil => exact ⟨[], rfl, .nil⟩
  | cons p d ih =>
    obtain ⟨e, h1, h2⟩ := ih fun q hq => hf q (by simp [hq])
    obtain ⟨r, h3, h4⟩ := hf p (by simp)
    refine ⟨r :: e, ?_, .cons h4 h2⟩
    rw [List.mapM_cons, h3, h1]
    rfl

/-- **C98** (`get_ind_names_by_group`): it always gives a result, with the groups of `get_groups` in this order, and for each the
names of its members, one for each, in alphabetical order. -/
theorem C98_names_by_group (h : List ClassStmt) : ∃ d, (Reg.after h).getIndNamesByGroup = .ok d ∧
    keys d = (Reg.after h).getGroups ∧ ∀ k l, get? d k = some l → l.Pairwise (· ≤ ·) ∧
      ∃ ns, l.Perm ns ∧ List.Forall₂ (fun i n => ∃ s, Spec.Registered h i s ∧ s.name = n) (Spec.members h k) ns := by
  have hi := regInv h
  have hmem : ∀ p ∈ (Reg.after h).grps, p.2 = Spec.members h p.1 := by
    intro p hp
    have hg : get? (Reg.after h).grps p.1 = some p.2 := mem_get?_of_nodup hi.gnodup hp
    have := hi.gmem p.1
    rw [hg] at this
    exact this
  obtain ⟨d, h1, h2⟩ := mapM_pairs (fun p => (p.2.mapM (Reg.after h).nameOf).map (fun l => (p.1, sortedNames l)))
    (Reg.after h).grps (fun k l r => r.1 = k ∧ r.2.Pairwise (· ≤ ·) ∧ ∃ ns, r.2.Perm ns ∧
      List.Forall₂ (fun i n => ∃ s, Spec.Registered h i s ∧ s.name = n) (Spec.members h k) ns) (by
    intro p hp
    obtain ⟨ns, g1, g2⟩ := nameOf_mapM (h := h) p.2 (by
      intro i hi'
      rw [hmem p hp] at hi'
      obtain ⟨s, hs, -⟩ := mem_members.mp hi'
      exact ⟨s, hs⟩)
    refine ⟨(p.1, sortedNames ns), by rw [g1]; rfl, rfl, sorted_sortedNames _, ns, List.perm_insertionSort _ _, ?_⟩
    rwa [← hmem p hp])
  refine ⟨d, h1, ?_, ?_⟩
  · unfold Reg.getGroups
    clear h1 hmem hi
    generalize (Reg.after h).grps = g at h2
    induction h2 with
    | nil => rfl
    | cons h3 _ ih =>
      show _ :: keys _ = _ :: keys _
      rw [ih, h3.1]
  · intro k l hl
    have hm := get?_eq_some_mem hl
    clear hl h1 hmem hi
    generalize (Reg.after h).grps = g at h2
    induction h2 with
    | nil => cases hm
    | cons h3 _ ih =>
      rcases List.mem_cons.mp hm with hm | hm
      · subst hm
        obtain ⟨e, h4, h5⟩ := h3
        simp only at e
        subst e
        exact ⟨h4, h5⟩
      · exact ih hm

/-- **C98** (the views agree; partial: the names of listed classes are all different): the members of the groups are exactly the
classes of `get_indicators` which name a group. -/
theorem C98_views_partial (h : List ClassStmt)
    (hd : ∀ i j s t, Spec.Registered h i s → Spec.Registered h j t → s.name = t.name → i = j) (i : ℕ) :
    (∃ k, i ∈ Spec.members h k) ↔ i ∈ (Reg.after h).getIndicators ∧ ∃ s, h[i]? = some s ∧ s.group ≠ [] := by
  have hb := C98_by_name h
  have hmem : i ∈ (Reg.after h).getIndicators ↔ ∃ n, Spec.Bears h n i := by
    rw [hb.2.2, List.mem_map]
    constructor
    · rintro ⟨⟨n, j⟩, h1, rfl⟩
      have hnd : (keys (Reg.after h).getIndByName).Nodup := by
        rw [hb.1]; exact (C98_names h).1.imp fun h => h.ne
      exact ⟨n, (hb.2.1 n j).mp (mem_get?_of_nodup hnd h1)⟩
    · rintro ⟨n, hn⟩
      exact ⟨(n, i), get?_eq_some_mem ((hb.2.1 n i).mpr hn), rfl⟩
  rw [hmem]
  constructor
  · rintro ⟨k, hk⟩
    obtain ⟨s, hs, hks⟩ := mem_members.mp hk
    refine ⟨⟨s.name, ⟨s, hs, rfl⟩, fun j t ht hn => (hd j i t s ht hs hn).le⟩, s, hs.1, ?_⟩
    intro h0; rw [h0] at hks; cases hks
  · rintro ⟨⟨n, ⟨s, hs, -⟩, -⟩, t, ht, hg⟩
    rw [hs.1] at ht
    injection ht with ht
    subst ht
    obtain ⟨k, hk⟩ := List.exists_mem_of_ne_nil _ hg
    exact ⟨k, mem_members.mpr ⟨s, hs, hk⟩⟩

/-- **C98** fails without this condition: a class whose name is used again by a later listed class stays a member of its
groups, although it is no longer among the indicators. -/
theorem C98_redefined {h : List ClassStmt} {i j : ℕ} {s t : ClassStmt} {k : String} (hs : Spec.Registered h i s)
    (ht : Spec.Registered h j t) (hij : i < j) (hn : t.name = s.name) (hk : k ∈ s.group) :
    i ∈ Spec.members h k ∧ i ∉ (Reg.after h).getIndicators := by
  refine ⟨mem_members.mpr ⟨s, hs, hk⟩, ?_⟩
  have hb := C98_by_name h
  rw [hb.2.2, List.mem_map]
  rintro ⟨⟨n, m⟩, h1, rfl⟩
  have hnd : (keys (Reg.after h).getIndByName).Nodup := by
    rw [hb.1]; exact (C98_names h).1.imp fun h => h.ne
  obtain ⟨⟨u, hu, hun⟩, h2⟩ := (hb.2.1 n m).mp (mem_get?_of_nodup hnd h1)
  have : s = u := Option.some.inj (hs.1.symm.trans hu.1)
  subst this
  have := h2 j t ht (by rw [hn]; exact hun)
  simp only at hij
  omega

/-- **C98** fails for what is done with the answers: the lists in the dictionary given by `get_ind_by_group` are those of the
library.  Whoever appends to one of them something which is not a listed class makes `get_ind_names_by_group` raise. -/
theorem C98_live (h : List ClassStmt) {k ref : String} (hr : get? (Reg.after h).getIndByGroup k = some ref) {c : ℕ}
    (hc : ∀ s, ¬ Spec.Registered h c s) :
    ((Reg.after h).appendTo ref c).getIndNamesByGroup = .error .keyError := by
  have hd := (C98_groups h).2.2 k ref hr
  unfold Reg.deref at hd
  have hc' : get? (Reg.after h).inds c = none := by
    cases hg : get? (Reg.after h).inds c with
    | none => rfl
    | some n =>
      obtain ⟨s, hs, -⟩ := ((regInv h).inds c n).mp hg
      exact absurd hs (hc s)
  unfold Reg.appendTo
  rw [hd]
  simp only []
  unfold Reg.getIndNamesByGroup
  simp only []
  have hgo : ∀ (f : String × List ℕ → Except Err (String × List String)) (l : Dict String (List ℕ)) (p : String × List ℕ),
      p ∈ l → (∀ q ∈ l, ∀ e, f q = .error e → e = .keyError) → f p = .error .keyError → l.mapM f = .error .keyError := by
    intro f l p hp hf hfp
    induction l with
    | nil => cases hp
    | cons q l ih =>
      rw [List.mapM_cons]
      cases hq : f q with
      | error e => rw [hf q (by simp) e hq]; rfl
      | ok r =>
        rcases List.mem_cons.mp hp with rfl | hp
        · rw [hfp] at hq; cases hq
        · rw [ih hp fun q hq => hf q (by simp [hq])]; rfl
  have herr : ∀ l : List ℕ, ∀ e, l.mapM (Reg.nameOf { Reg.after h with grps := Py.set (Reg.after h).grps ref (Spec.members h k ++ [c]) }) = .error e →
      e = .keyError := by
    intro l
    induction l with
    | nil => intro e he; cases he
    | cons i l ih =>
      intro e he
      rw [List.mapM_cons] at he
      cases hn : Reg.nameOf { Reg.after h with grps := Py.set (Reg.after h).grps ref (Spec.members h k ++ [c]) } i with
      | error e' =>
        rw [hn] at he
        have h1 : e' = e := by injection he
        unfold Reg.nameOf at hn
        split at hn
        · cases hn
        · injection hn with hn; rw [← h1, ← hn]
      | ok n =>
        rw [hn] at he
        cases hl : l.mapM (Reg.nameOf { Reg.after h with grps := Py.set (Reg.after h).grps ref (Spec.members h k ++ [c]) }) with
        | error e' => rw [hl] at he; injection he with he; rw [← he]; exact ih e' hl
        | ok r => rw [hl] at he; cases he
  have hsn : ∀ l : List ℕ, ∃ e, (l ++ [c]).mapM (Reg.nameOf { Reg.after h with grps := Py.set (Reg.after h).grps ref (Spec.members h k ++ [c]) }) = .error e := by
    intro l
    induction l with
    | nil =>
      refine ⟨.keyError, ?_⟩
      rw [List.nil_append, List.mapM_cons]
      have : Reg.nameOf { Reg.after h with grps := Py.set (Reg.after h).grps ref (Spec.members h k ++ [c]) } c = .error .keyError := by
        unfold Reg.nameOf
        simp only []
        rw [hc']
      rw [this]; rfl
    | cons i l ih =>
      obtain ⟨e, he⟩ := ih
      rw [List.cons_append, List.mapM_cons, he]
      cases Reg.nameOf { Reg.after h with grps := Py.set (Reg.after h).grps ref (Spec.members h k ++ [c]) } i with
      | error e' => exact ⟨e', rfl⟩
      | ok n => exact ⟨e, rfl⟩
  refine hgo _ _ (ref, Spec.members h k ++ [c]) ?_ ?_ ?_
  · refine get?_eq_some_mem ?_
    rw [get?_set, if_pos rfl]
  · intro q _ e he
    cases hq : q.2.mapM (Reg.nameOf { Reg.after h with grps := Py.set (Reg.after h).grps ref (Spec.members h k ++ [c]) }) with
    | error e' => rw [hq] at he; injection he with he; rw [← he]; exact herr _ _ hq
    | ok r => rw [hq] at he; cases he
  · obtain ⟨e, he⟩ := hsn (Spec.members h k)
    have := herr _ _ he
    subst this
    simp only []
    rw [he]
    rfl

/-! ### The library -/

theorem libStmts_go (rows : List Row) (d : Dict String (List String)) (l : List ClassStmt) :
    ∃ gs : List (List String), gs.length = rows.length ∧
      (rows.foldl (fun (st : Dict String (List String) × List ClassStmt) r =>
        let grp := rowGroup st.1 r
        (Py.set st.1 r.name grp, st.2 ++ [⟨r.name, ["btalib", "indicators", r.mod], grp⟩])) (d, l)).2 =
      l ++ List.zipWith (fun r g => ⟨r.name, ["btalib", "indicators", r.mod], g⟩) rows gs := by
  induction rows generalizing d l with
  | nil => exact ⟨[], rfl, by simp⟩
  | cons r rows ih =>
    obtain ⟨gs, h1, h2⟩ := ih (Py.set d r.name (rowGroup d r)) (l ++ [⟨r.name, ["btalib", "indicators", r.mod], rowGroup d r⟩])
    refine ⟨rowGroup d r :: gs, by simp [h1], ?_⟩
    rw [List.foldl_cons]
    simp only [] at h2 ⊢
    rw [h2]
    simp

/-- each row of the table is a class statement in a submodule of `btalib.indicators` -/
theorem libStmts_get (rows : List Row) (i : ℕ) (s : ClassStmt) (h : (libStmts rows)[i]? = some s) :
    ∃ r, rows[i]? = some r ∧ s.name = r.name ∧ s.modsplit = ["btalib", "indicators", r.mod] := by
  obtain ⟨gs, h1, h2⟩ := libStmts_go rows [] []
  unfold libStmts at h
  rw [h2, List.nil_append, List.getElem?_zipWith] at h
  cases hr : rows[i]? with
  | none => simp [hr] at h
  | some r =>
    cases hg : gs[i]? with
    | none => simp [hr, hg] at h
    | some g =>
      simp only [hr, hg, Option.some.injEq] at h
      exact ⟨r, rfl, by rw [← h], by rw [← h]⟩

theorem libStmts_of (rows : List Row) (i : ℕ) (r : Row) (h : rows[i]? = some r) :
    ∃ s, (libStmts rows)[i]? = some s ∧ s.name = r.name ∧ s.modsplit = ["btalib", "indicators", r.mod] := by
  obtain ⟨gs, h1, h2⟩ := libStmts_go rows [] []
  have hi : i < gs.length := by rw [h1]; exact (List.getElem?_eq_some_iff.mp h).1
  unfold libStmts
  rw [h2, List.nil_append, List.getElem?_zipWith, h, List.getElem?_eq_getElem hi]
  exact ⟨_, rfl, rfl, rfl⟩

/-- **C98** (the library): `get_ind_names` gives the names of all the classes of the library which do not start with an
underscore, and no others. -/
theorem C98_library (n : String) : n ∈ (Reg.after (libStmts library)).getIndNames ↔
    ∃ r ∈ library, r.name = n ∧ n.toList.head? ≠ some '_' := by
  rw [(C98_names _).2]
  constructor
  · rintro ⟨i, s, ⟨h1, h2⟩, h3⟩
    obtain ⟨r, hr, hn, -⟩ := libStmts_get _ _ _ h1
    exact ⟨r, List.mem_of_getElem? hr, by rw [← hn, h3], by rw [← h3]; exact h2.2.2⟩
  · rintro ⟨r, hr, h1, h2⟩
    obtain ⟨i, hi⟩ := List.mem_iff_getElem?.mp hr
    obtain ⟨s, hs, hn, hm⟩ := libStmts_of _ _ _ hi
    exact ⟨i, s, ⟨hs, by rw [hm]; rfl, by rw [hm]; simp, by rw [hn, h1]; exact h2⟩, by rw [hn, h1]⟩

set_option maxRecDepth 100000 in
theorem library_nodup : (library.map (·.name)).Nodup := by decide +kernel

/-- **C98** (the library): the condition of `C98_views_partial` is met, no name is used twice. -/
theorem C98_library_views (i : ℕ) : (∃ k, i ∈ Spec.members (libStmts library) k) ↔
    i ∈ (Reg.after (libStmts library)).getIndicators ∧ ∃ s, (libStmts library)[i]? = some s ∧ s.group ≠ [] := by
  refine C98_views_partial _ (fun i j s t hs ht hn => ?_) i
  obtain ⟨r, hr, h1, -⟩ := libStmts_get _ _ _ hs.1
  obtain ⟨q, hq, h2, -⟩ := libStmts_get _ _ _ ht.1
  have e1 : (library.map (·.name))[i]? = some s.name := by rw [List.getElem?_map, hr, h1]; rfl
  have e2 : (library.map (·.name))[j]? = some s.name := by rw [List.getElem?_map, hq, hn, h2]; rfl
  obtain ⟨l1, g1⟩ := List.getElem?_eq_some_iff.mp e1
  obtain ⟨l2, g2⟩ := List.getElem?_eq_some_iff.mp e2
  exact (library_nodup.getElem_inj_iff).mp (g1.trans g2.symm)

/-! A history which meets the hypotheses: a class, a private one, one of the user, and a second definition of the first. -/

def classes5 : List ClassStmt :=
  [⟨"sma", ["btalib", "indicators", "sma"], ["overlap"]⟩, ⟨"_base", ["btalib", "indicators", "x"], ["overlap"]⟩,
   ⟨"mine", ["__main__"], ["own"]⟩, ⟨"rsi", ["btalib", "indicators", "rsi"], ["momentum", "overlap"]⟩,
   ⟨"sma", ["btalib", "indicators", "other"], ["statistic"]⟩]

example : (Reg.after classes5).getIndNames = ["rsi", "sma"] ∧ (Reg.after classes5).getIndicators = [3, 4] ∧
    (Reg.after classes5).getGroups = ["overlap", "momentum", "statistic"] ∧
    (Reg.after classes5).getIndNamesByGroup.toOption = some [("overlap", ["rsi", "sma"]), ("momentum", ["rsi"]), ("statistic", ["sma"])] := by
  decide +kernel

example : 0 ∈ Spec.members classes5 "overlap" ∧ 0 ∉ (Reg.after classes5).getIndicators :=
  C98_redefined (h := classes5) (i := 0) (j := 4) (s := classes5[0]) (t := classes5[4]) (k := "overlap")
    ⟨rfl, by decide +kernel⟩ ⟨rfl, by decide +kernel⟩ (by decide) rfl (by decide)

example : ((Reg.after classes5).appendTo "momentum" 2).getIndNamesByGroup = .error .keyError :=
  C98_live classes5 (k := "momentum") (by decide +kernel) (by
    rintro s ⟨h1, h2⟩
    have : classes5[2] = s := Option.some.inj h1
    subst this
    exact absurd h2 (by decide +kernel))

end Bta.Meta
