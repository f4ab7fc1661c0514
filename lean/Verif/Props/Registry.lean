import Verif.Meta.Registry

/-!
# Aliases and groups (C61), names used by the initialisers (C62)
-/

set_option linter.unusedSectionVars false
set_option linter.unusedVariables false

namespace Bta.Meta

open Py

/-! ## Aliases -/

/-- The class binds the name `n`: its own name or one of its aliases. -/
def _root_.Spec.Claims (r : Row) (n : String) : Prop := n = r.name ∨ n ∈ r.alias

theorem mem_rowBinds {r : Row} {n : String} : n ∈ (rowBinds r).map Prod.fst ↔ Spec.Claims r n := by
  simp only [rowBinds, Spec.Claims, List.map_append, List.map_map, List.mem_append, List.mem_map, Function.comp,
    List.map_cons, List.map_nil, List.mem_singleton, exists_eq_right]
  exact or_comm

theorem rowBinds_snd {r : Row} {p : String × String} (h : p ∈ rowBinds r) : p.2 = r.name := by
  simp only [rowBinds, List.mem_append, List.mem_map, List.mem_singleton] at h
  rcases h with ⟨a, _, rfl⟩ | rfl <;> rfl

theorem get?_update_not_mem {α β : Type} [DecidableEq α] (d : Dict α β) (e : List (α × β)) (x : α)
    (h : x ∉ e.map Prod.fst) : get? (update d e) x = get? d x := by
  induction e generalizing d with
  | nil => rfl
  | cons p e ih =>
    simp only [List.map_cons, List.mem_cons, not_or] at h
    show get? (update (Py.set d p.1 p.2) e) x = _
    rw [ih _ h.2, get?_set, if_neg (fun e => h.1 e.symm)]

theorem update_append {α β : Type} [DecidableEq α] (d : Dict α β) (e f : List (α × β)) :
    update d (e ++ f) = update (update d e) f := List.foldl_append

theorem get?_update_const {α β : Type} [DecidableEq α] (d : Dict α β) (e : List (α × β)) (x : α) (v : β)
    (h : x ∈ e.map Prod.fst) (hv : ∀ p ∈ e, p.2 = v) : get? (update d e) x = some v := by
  induction e generalizing d with
  | nil => simp at h
  | cons p e ih =>
    show get? (update (Py.set d p.1 p.2) e) x = _
    by_cases hx : x ∈ e.map Prod.fst
    · exact ih _ hx (fun q hq => hv q (List.mem_cons_of_mem _ hq))
    · rw [get?_update_not_mem _ _ _ hx]
      simp only [List.map_cons, List.mem_cons] at h
      rw [get?_set, if_pos (h.resolve_right hx).symm, hv p List.mem_cons_self]

theorem moduleNs_last (r1 r2 : List Row) (r : Row) (n : String) (h : Spec.Claims r n)
    (h2 : ∀ d ∈ r2, ¬ Spec.Claims d n) : get? (moduleNs (r1 ++ r :: r2)) n = some r.name := by
  simp only [moduleNs, List.flatMap_append, List.flatMap_cons]
  rw [update_append, update_append, get?_update_not_mem]
  · exact get?_update_const _ _ _ _ (mem_rowBinds.2 h) (fun p hp => rowBinds_snd hp)
  · intro hm
    simp only [List.mem_map, List.mem_flatMap] at hm
    obtain ⟨p, ⟨d, hd, hp⟩, rfl⟩ := hm
    exact h2 d hd (mem_rowBinds.1 (List.mem_map.2 ⟨p, hp, rfl⟩))

theorem mem_moduleAll {rows : List Row} {n : String} : n ∈ moduleAll rows ↔ ∃ r ∈ rows, Spec.Claims r n := by
  simp only [moduleAll, List.mem_flatMap, List.mem_cons, Spec.Claims]

/-- Copying names: a name which is in the list gets what the module has, others are left alone. -/
theorem copy_names (ns : Dict String String) (l : List String) (p : Dict String PkgVal) (n : String) :
    get? (l.foldl (copyName ns) p) n =
    if n ∈ l then ((get? ns n).map PkgVal.cls).or (get? p n) else get? p n := by
  induction l generalizing p with
  | nil => rfl
  | cons m l ih =>
    rw [List.foldl_cons, ih]
    by_cases hm : m = n
    · subst hm
      unfold copyName
      cases hg : get? ns m with
      | none => simp
      | some c => simp [get?_set]
    · have : get? (copyName ns p m) n = get? p n := by
        unfold copyName
        split
        · rw [get?_set, if_neg hm]
        · rfl
      rw [this]
      have h' : ¬ n = m := fun e => hm e.symm
      have hc : (n ∈ m :: l) ↔ n ∈ l := by simp [h']
      simp only [hc]

theorem importModule_other (p : Dict String PkgVal) (m : String × List Row) (n : String) (hm : m.1 ≠ n)
    (h : ∀ d ∈ m.2, ¬ Spec.Claims d n) : get? (importModule p m) n = get? p n := by
  rw [importModule, copy_names, if_neg, get?_set, if_neg hm]
  rw [mem_moduleAll]
  rintro ⟨r, hr, hc⟩
  exact h r hr hc

/-- **C61**, in general: in any library, a name of the package stands for the last class which claims it as its name or
as an alias (unless a submodule imported later has this name).  So an alias belongs to the class declaring it exactly as
long as no later class declares it too. -/
theorem C61_last_wins (ms1 ms2 : List (String × List Row)) (m : String) (r1 r2 : List Row) (r : Row) (n : String)
    (h : Spec.Claims r n) (h2 : ∀ d ∈ r2, ¬ Spec.Claims d n)
    (h3 : ∀ m' ∈ ms2, m'.1 ≠ n ∧ ∀ d ∈ m'.2, ¬ Spec.Claims d n) :
    get? (package (ms1 ++ (m, r1 ++ r :: r2) :: ms2)) n = some (.cls r.name) := by
  unfold package
  rw [List.foldl_append, List.foldl_cons]
  have key : get? (importModule (ms1.foldl importModule []) (m, r1 ++ r :: r2)) n = some (.cls r.name) := by
    rw [importModule, copy_names, if_pos (mem_moduleAll.2 ⟨r, by simp, h⟩), moduleNs_last r1 r2 r n h h2]
    rfl
  generalize importModule (ms1.foldl importModule []) (m, r1 ++ r :: r2) = p at key ⊢
  induction ms2 generalizing p with
  | nil => exact key
  | cons m' ms2 ih =>
    rw [List.foldl_cons]
    refine ih (fun x hx => h3 x (List.mem_cons_of_mem _ hx)) _ ?_
    rw [importModule_other _ _ _ (h3 m' List.mem_cons_self).1 (h3 m' List.mem_cons_self).2, key]

/-- Two classes with one alias, in modules imported one after the other: it belongs to the second. -/
example : get? (package [("m1", [{ indicatorRow with name := "a", «alias» := ["A", "X"] }]),
      ("m2", [{ indicatorRow with name := "b", «alias» := ["X"] }])]) "X" = some (.cls "b") ∧
    get? (package [("m1", [{ indicatorRow with name := "a", «alias» := ["A", "X"] }]),
      ("m2", [{ indicatorRow with name := "b", «alias» := ["X"] }])]) "A" = some (.cls "a") := by decide +kernel

/-! ## Groups -/

theorem foldl_groups (grp : List String) (name : String) (d : Dict String (List String)) (g n : String) :
    n ∈ (get? (grp.foldl (fun d k => Py.set d k ((get? d k).getD [] ++ [name])) d) g).getD [] ↔
      n ∈ (get? d g).getD [] ∨ (n = name ∧ g ∈ grp) := by
  induction grp generalizing d with
  | nil => simp
  | cons k grp ih =>
    rw [List.foldl_cons, ih, get?_set]
    by_cases h : k = g
    · subst h
      rw [if_pos rfl]
      simp only [Option.getD_some, List.mem_append, List.mem_cons, List.not_mem_nil, or_false, true_or, and_true]
      constructor
      · rintro ((h | h) | h)
        · exact .inl h
        · exact .inr h
        · exact .inr h.1
      · rintro (h | h)
        · exact .inl (.inl h)
        · exact .inl (.inr h)
    · rw [if_neg h]
      have h' : ¬ g = k := fun e => h e.symm
      simp only [List.mem_cons, h', false_or]

theorem registry_append (rows : List Row) (r : Row) : registry (rows ++ [r]) = register (registry rows) r := by
  simp [registry, List.foldl_append]

theorem register_attr (g : Registry) (r : Row) : (register g r).attr = Py.set g.attr r.name (rowGroup g.attr r) := by
  unfold register
  split <;> rfl

theorem attr_mem (rows : List Row) (n : String) : (get? (registry rows).attr n).isSome ↔ ∃ r ∈ rows, r.name = n := by
  induction rows using List.reverseRecOn with
  | nil => simp [registry, get?]
  | append_singleton rows r ih =>
    rw [registry_append, register_attr, get?_set]
    by_cases h : r.name = n
    · rw [if_pos h]
      simp only [Option.isSome_some, true_iff]
      exact ⟨r, by simp, h⟩
    · rw [if_neg h, ih]
      simp only [List.mem_append, List.mem_singleton]
      constructor
      · rintro ⟨x, hx, he⟩
        exact ⟨x, .inl hx, he⟩
      · rintro ⟨x, hx | hx, he⟩
        · exact ⟨x, hx, he⟩
        · exact absurd (hx ▸ he) h

/-- **C61**, groups, in general: a class is found under a group exactly if it is public and the group is in its
`group`. -/
theorem C61_group_listed (rows : List Row) (hn : (rows.map (·.name)).Nodup) (n g : String) :
    n ∈ (get? (registry rows).groups g).getD [] ↔
      ((∃ r ∈ rows, r.name = n) ∧ isPrivate n = false ∧ g ∈ (get? (registry rows).attr n).getD []) := by
  induction rows using List.reverseRecOn with
  | nil => simp [registry, get?]
  | append_singleton rows r ih =>
    simp only [List.map_append, List.map_cons, List.map_nil] at hn
    rw [List.nodup_append] at hn
    have hr : ∀ x ∈ rows, x.name ≠ r.name := fun x hx => hn.2.2 _ (List.mem_map.2 ⟨x, hx, rfl⟩) _ (by simp)
    have hih := ih hn.1
    rw [registry_append, register_attr, get?_set]
    have hg : n ∈ (get? (register (registry rows) r).groups g).getD [] ↔
        n ∈ (get? (registry rows).groups g).getD [] ∨
          (n = r.name ∧ isPrivate r.name = false ∧ g ∈ rowGroup (registry rows).attr r) := by
      unfold register
      by_cases hp : isPrivate r.name = true
      · simp [hp]
      · rw [if_neg hp]
        show n ∈ (get? (List.foldl _ _ _) g).getD [] ↔ _
        rw [foldl_groups]
        simp [hp]
    rw [hg, hih]
    by_cases h : r.name = n
    · subst h
      rw [if_pos rfl]
      simp only [Option.getD_some, List.mem_append, List.mem_singleton, true_and]
      constructor
      · rintro (⟨⟨x, hx, he⟩, _⟩ | h)
        · exact absurd he (hr x hx)
        · exact ⟨⟨r, .inr rfl, rfl⟩, h⟩
      · rintro ⟨_, h⟩
        exact .inr h
    · rw [if_neg h]
      simp only [List.mem_append, List.mem_singleton]
      constructor
      · rintro (⟨⟨x, hx, he⟩, h2⟩ | h2)
        · exact ⟨⟨x, .inl hx, he⟩, h2⟩
        · exact absurd h2.1.symm h
      · rintro ⟨⟨x, hx | hx, he⟩, h2⟩
        · exact .inl ⟨⟨x, hx, he⟩, h2⟩
        · exact absurd (hx ▸ he) h

theorem attr_stable (rows post : List Row) (n : String) (hn : ∀ x ∈ post, x.name ≠ n) :
    get? (registry (rows ++ post)).attr n = get? (registry rows).attr n := by
  induction post using List.reverseRecOn with
  | nil => simp
  | append_singleton post r ih =>
    rw [← List.append_assoc, registry_append, register_attr, get?_set,
      if_neg (hn r (by simp)), ih (fun x hx => hn x (by simp [hx]))]

/-- **C61**, groups: a declared group is the group of the class. -/
theorem C61_group_own (pre post : List Row) (r : Row) (g : String) (gs : List String) (hg : r.group = some (g :: gs))
    (hn : ∀ x ∈ post, x.name ≠ r.name) :
    get? (registry (pre ++ r :: post)).attr r.name = some (g :: gs) := by
  have : pre ++ r :: post = (pre ++ [r]) ++ post := by simp
  rw [this, attr_stable _ _ _ hn, registry_append, register_attr, get?_set, if_pos rfl]
  simp [rowGroup, hg]

/-- **C61**, groups: a class without its own gets the group of its base class. -/
theorem C61_group_inherited (pre post : List Row) (r : Row) (hg : r.group = none)
    (hn : ((pre ++ r :: post).map (·.name)).Nodup) (hb : ∃ b ∈ pre, b.name = r.base) :
    get? (registry (pre ++ r :: post)).attr r.name = get? (registry (pre ++ r :: post)).attr r.base := by
  have hsplit : pre ++ r :: post = (pre ++ [r]) ++ post := by simp
  simp only [List.map_append, List.map_cons] at hn
  rw [List.nodup_append, List.nodup_cons] at hn
  obtain ⟨b, hb, hbn⟩ := hb
  have h1 : ∀ x ∈ post, x.name ≠ r.name := fun x hx e => hn.2.1.1 (e ▸ List.mem_map.2 ⟨x, hx, rfl⟩)
  have h2 : ∀ x ∈ r :: post, x.name ≠ r.base := fun x hx e =>
    hn.2.2 b.name (List.mem_map.2 ⟨b, hb, rfl⟩) x.name (by
      rcases List.mem_cons.1 hx with rfl | h
      · simp
      · exact List.mem_cons_of_mem _ (List.mem_map.2 ⟨x, h, rfl⟩)) (by rw [e, hbn])
  rw [attr_stable pre (r :: post) _ h2, hsplit, attr_stable _ _ _ h1, registry_append, register_attr, get?_set,
    if_pos rfl]
  have hs := (attr_mem pre r.base).2 ⟨b, hb, hbn⟩
  obtain ⟨v, hv⟩ := Option.isSome_iff_exists.1 hs
  simp [rowGroup, hg, hv]

/-! ## Names used by the initialisers -/

/-- What must be known about an access: `present` are the outputs assigned so far in any case. -/
def chkAcc (gi go : LGen) (present : List String) : Acc → Option (List String)
  | .iread n => if (gi.resolve n).any (fun s => decide (s ∈ gi.lines)) then some present else none
  | .ifiread n => if (gi.resolve n).any (fun s => decide (s ∈ gi.lines)) then some present else none
  | .set n => (go.resolve (slotName go n)).map (fun s => s :: present)
  | .ifset n => (go.resolve (slotName go n)).map (fun _ => present)
  | .get n => if (go.resolve (slotName go n)).any (fun s => decide (s ∈ present)) then some present else none

def chkAccs (gi go : LGen) (present : List String) : List Acc → Option (List String)
  | [] => some present
  | a :: l => (chkAcc gi go present a).bind (fun p => chkAccs gi go p l)

def chkNames (c : List Row) : Bool :=
  match chkAccs (inGen c) (outGen c) [] (c.reverse.flatMap (·.acc)) with
  | some p => (outGen c).lines.all (fun n => ((outGen c).resolve n).any (fun s => decide (s ∈ p)))
  | none => false

variable {V : Type}

theorem getattr_ok (g : LGen) (st : Dict String V) (n : String) (p : List String)
    (h : (g.resolve n).any (fun s => decide (s ∈ p)) = true) (hp : ∀ s ∈ p, (get? st s).isSome) :
    ∃ v, g.getattr st n = .ok v := by
  unfold LGen.getattr
  cases hr : g.resolve n with
  | none => rw [hr] at h; simp at h
  | some s =>
    rw [hr] at h
    simp only [Option.any_some, decide_eq_true_eq] at h
    obtain ⟨v, hv⟩ := Option.isSome_iff_exists.1 (hp s h)
    exact ⟨v, by simp [hv]⟩

/-- **C62** What the accesses must respect: reading an output before it was assigned is an AttributeError, and so is reading an input
which is not there. -/
theorem C62_unset (gi go : LGen) (ins outs : Dict String V) (t : Bool) (v : V) (n : String) :
    (go.resolve (slotName go n) = some (slotName go n) → get? outs (slotName go n) = none →
      runAcc gi go ins t v outs (.get n) = .error .attributeError) ∧
    (gi.resolve n = some n → get? ins n = none → runAcc gi go ins t v outs (.iread n) = .error .attributeError) :=
  ⟨fun h1 h2 => by simp only [runAcc, LGen.getattr, h1, h2, Except.map],
    fun h1 h2 => by simp only [runAcc, LGen.getattr, h1, h2, Except.map]⟩

/-- Non-vacuity: the first output of the stochastic before anything is assigned. -/
example : (outGen (libChain "stochastic")).resolve (slotName (outGen (libChain "stochastic")) "[0]") =
    some (slotName (outGen (libChain "stochastic")) "[0]") ∧ get? ([] : Dict String Nat) "k" = none := by decide +kernel

theorem chkAcc_sound (gi go : LGen) (ins : Dict String V) (hin : ∀ s ∈ gi.lines, (get? ins s).isSome) (p p' : List String)
    (a : Acc) (h : chkAcc gi go p a = some p') (t : Bool) (v : V) (outs : Dict String V)
    (ho : ∀ s ∈ p, (get? outs s).isSome) :
    ∃ o, runAcc gi go ins t v outs a = .ok o ∧ ∀ s ∈ p', (get? o s).isSome := by
  have hset : ∀ s, ∀ x, x ∈ p → (get? (Py.set outs s v) x).isSome := by
    intro s x hx
    rw [get?_set]
    split
    · rfl
    · exact ho x hx
  cases a with
  | iread n =>
    simp only [chkAcc] at h
    split at h
    · rename_i hc
      cases h
      obtain ⟨w, hw⟩ := getattr_ok gi ins n _ hc hin
      exact ⟨outs, by simp [runAcc, hw, Except.map], ho⟩
    · cases h
  | ifiread n =>
    simp only [chkAcc] at h
    split at h
    · rename_i hc
      cases h
      obtain ⟨w, hw⟩ := getattr_ok gi ins n _ hc hin
      exact ⟨outs, by cases t <;> simp [runAcc, hw, Except.map], ho⟩
    · cases h
  | set n =>
    simp only [chkAcc, Option.map_eq_some_iff] at h
    obtain ⟨s, hs, rfl⟩ := h
    refine ⟨Py.set outs s v, by simp [runAcc, LGen.setattr, hs], ?_⟩
    intro x hx
    rcases List.mem_cons.1 hx with rfl | hx
    · simp [get?_set]
    · exact hset s x hx
  | ifset n =>
    simp only [chkAcc, Option.map_eq_some_iff] at h
    obtain ⟨s, hs, rfl⟩ := h
    cases t with
    | false => exact ⟨outs, by simp [runAcc], ho⟩
    | true => exact ⟨Py.set outs s v, by simp [runAcc, LGen.setattr, hs], fun x hx => hset s x hx⟩
  | get n =>
    simp only [chkAcc] at h
    split at h
    · rename_i hc
      cases h
      obtain ⟨w, hw⟩ := getattr_ok go outs _ _ hc ho
      exact ⟨outs, by simp [runAcc, hw, Except.map], ho⟩
    · cases h

theorem chkAccs_sound (gi go : LGen) (ins : Dict String V) (hin : ∀ s ∈ gi.lines, (get? ins s).isSome)
    (env : Nat → Bool × V) (l : List Acc) : ∀ (p p' : List String), chkAccs gi go p l = some p' → ∀ outs : Dict String V,
    (∀ s ∈ p, (get? outs s).isSome) → ∃ o, runAccs gi go ins env outs l = .ok o ∧ ∀ s ∈ p', (get? o s).isSome := by
  induction l with
  | nil =>
    intro p p' h outs ho
    cases h
    exact ⟨outs, rfl, ho⟩
  | cons a l ih =>
    intro p p' h outs ho
    simp only [chkAccs] at h
    cases hc : chkAcc gi go p a with
    | none => rw [hc] at h; cases h
    | some q =>
      rw [hc] at h
      obtain ⟨o, h1, h2⟩ := chkAcc_sound gi go ins hin p q a hc (env l.length).1 (env l.length).2 outs ho
      obtain ⟨o', h3, h4⟩ := ih q p' h o h2
      exact ⟨o', by simp [runAccs, h1, Except.bind, h3], h4⟩

theorem mapM_all_ok {α β ε : Type} (f : α → Except ε β) (l : List α) (h : ∀ x ∈ l, ∃ y, f x = .ok y) :
    ∃ r, l.mapM f = .ok r ∧ r.length = l.length := by
  induction l with
  | nil => exact ⟨[], rfl, rfl⟩
  | cons a l ih =>
    obtain ⟨y, hy⟩ := h a List.mem_cons_self
    obtain ⟨r, hr, hl⟩ := ih (fun x hx => h x (List.mem_cons_of_mem _ hx))
    exact ⟨y :: r, by simp [List.mapM_cons, hy, hr, bind, Except.bind, pure, Except.pure], by simp [hl]⟩

theorem chkNames_sound (c : List Row) (h : chkNames c = true) (ins : Dict String V)
    (hin : ∀ s ∈ (inGen c).lines, (get? ins s).isSome) (env : Nat → Bool × V) :
    ∃ vs, runNames c ins env = .ok vs ∧ vs.length = (outGen c).lines.length := by
  unfold chkNames at h
  split at h
  · rename_i p hp
    obtain ⟨o, h1, h2⟩ := chkAccs_sound (inGen c) (outGen c) ins hin env _ [] p hp [] (by simp)
    obtain ⟨r, hr, hl⟩ := mapM_all_ok (fun n => (outGen c).getattr o n) (outGen c).lines (by
      intro n hn
      exact getattr_ok _ _ _ p ((List.all_eq_true.1 h) n hn) h2)
    exact ⟨r, by simp [runNames, h1, Except.bind, hr], hl⟩
  · cases h

end Bta.Meta
