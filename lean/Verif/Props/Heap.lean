import Verif.Heap

/-!
# C67: indicators do not modify the caller's data
-/

set_option linter.unusedSectionVars false
set_option linter.unusedVariables false

namespace Bta.Heap

open Line

variable {V : Type} [PyFloat V]

/-- The memory `m` and the values `v` describe the same lines, and the objects of the caller are as in `m0`. -/
structure Inv (nin : ℕ) (m0 : Mem V) (st : List Own) (m : Mem V) (v : List (Line V)) : Prop where
  len1 : m.env.length = st.length
  len2 : v.length = st.length
  le : nin ≤ st.length
  val : ∀ i : ℕ, m.get i = valOps.get v i
  bound : ∀ (i : ℕ) (o : LObj), m.env[i]? = some o → o.cell < m.cells.length
  more : m0.cells.length ≤ m.cells.length
  shared : ∀ (i : ℕ) (o : LObj), st[i]? = some Own.shared → m.env[i]? = some o → m0.cells.length ≤ o.cell
  own : ∀ (i : ℕ) (o : LObj), st[i]? = some Own.own → m.env[i]? = some o → m0.cells.length ≤ o.cell ∧
    ∀ (j : ℕ) (o' : LObj), j ≠ i → m.env[j]? = some o' → o'.cell ≠ o.cell
  cells : ∀ c < m0.cells.length, m.cells[c]? = m0.cells[c]?
  envs : ∀ i < nin, m.env[i]? = m0.env[i]?

variable {nin : ℕ} {m0 m : Mem V} {st : List Own} {v : List (Line V)}

theorem mod_get {α : Type} (f : α → α) (l : List α) (i j : ℕ) : (l.modify i f)[j]? = if i = j then (l[j]?).map f else l[j]? := by
  rw [List.getElem?_modify]
  cases l[j]? with
  | none => split <;> rfl
  | some a => split <;> simp_all

theorem get_some {x : ℕ} {o : LObj} (h : m.env[x]? = some o) :
    m.get x = ⟨((m.cells[o.cell]?).map Cell.vals).getD [], o.minperiod⟩ := by
  unfold Mem.get; rw [h]

theorem get_none {x : ℕ} (h : m.env[x]? = none) : m.get x = ⟨[], 1⟩ := by unfold Mem.get; rw [h]

theorem Inv.exists (h : Inv nin m0 st m v) {x : ℕ} (hx : x < st.length) : ∃ o, m.env[x]? = some o :=
  ⟨m.env[x]'(h.len1 ▸ hx), List.getElem?_eq_getElem _⟩

theorem Inv.push (h : Inv nin m0 st m v) (l : Line V) :
    Inv nin m0 (st ++ [.own]) (memOps.push m l) (valOps.push v l) := by
  have e1 : ∀ i, i < st.length → (memOps.push m l).env[i]? = m.env[i]? := fun i hi =>
    List.getElem?_append_left (by rw [h.len1]; exact hi)
  have e2 : (memOps.push m l).env[st.length]? = some ⟨m.cells.length, l.minperiod, ""⟩ := by
    show (m.env ++ _)[st.length]? = _
    rw [List.getElem?_append_right (by rw [h.len1]), h.len1]; simp
  have e3 : ∀ i o, (memOps.push m l).env[i]? = some o →
      (i < st.length ∧ m.env[i]? = some o) ∨ (i = st.length ∧ o = ⟨m.cells.length, l.minperiod, ""⟩) := by
    intro i o ho
    rcases lt_trichotomy i st.length with c | c | c
    · exact .inl ⟨c, by rw [← e1 i c]; exact ho⟩
    · subst c; rw [e2] at ho; exact .inr ⟨rfl, (Option.some.inj ho).symm⟩
    · have : (memOps.push m l).env[i]? = none := by
        show (m.env ++ _)[i]? = _
        rw [List.getElem?_eq_none]; simp only [List.length_append, List.length_singleton, h.len1]; omega
      rw [this] at ho; cases ho
  have s1 : ∀ i q, (st ++ [Own.own])[i]? = some q → i < st.length → st[i]? = some q := by
    intro i q hq hi; rwa [List.getElem?_append_left hi] at hq
  have c1 : ∀ c, c < m.cells.length → (memOps.push m l).cells[c]? = m.cells[c]? := fun c hc => List.getElem?_append_left hc
  refine ⟨by simp [memOps, h.len1], by simp [valOps, h.len2], by have := h.le; simp; omega, ?_, ?_, ?_, ?_, ?_, ?_, ?_⟩
  · intro i
    rcases lt_trichotomy i st.length with c | c | c
    · obtain ⟨o, ho⟩ := h.exists c
      rw [get_some (by rw [e1 i c]; exact ho), c1 _ (h.bound i o ho), ← get_some ho, h.val i]
      show _ = ((v ++ [l])[i]?).getD _
      rw [List.getElem?_append_left (by rw [h.len2]; exact c)]
      rfl
    · subst c
      rw [get_some e2]
      show _ = ((v ++ [l])[st.length]?).getD _
      rw [List.getElem?_append_right (by rw [h.len2]), h.len2]
      show (⟨(((m.cells ++ [⟨l.series, ""⟩])[m.cells.length]?).map Cell.vals).getD [], l.minperiod⟩ : Line V) = _
      rw [List.getElem?_append_right (le_refl _)]
      simp
    · rw [get_none (by show (m.env ++ _)[i]? = _; rw [List.getElem?_eq_none]; simp only [List.length_append, List.length_singleton, h.len1]; omega)]
      show _ = ((v ++ [l])[i]?).getD _
      rw [List.getElem?_eq_none (by simp only [List.length_append, List.length_singleton, h.len2]; omega)]
      rfl
  · intro i o ho
    show o.cell < (m.cells ++ _).length
    simp only [List.length_append, List.length_singleton]
    rcases e3 i o ho with ⟨_, q⟩ | ⟨_, rfl⟩
    · have := h.bound i o q; omega
    · simp
  · have := h.more; show _ ≤ (m.cells ++ _).length; simp; omega
  · intro i o hs ho
    rcases e3 i o ho with ⟨c, q⟩ | ⟨rfl, rfl⟩
    · exact h.shared i o (s1 i _ hs c) q
    · exact h.more
  · intro i o hs ho
    rcases e3 i o ho with ⟨c, q⟩ | ⟨rfl, rfl⟩
    · obtain ⟨a, b⟩ := h.own i o (s1 i _ hs c) q
      refine ⟨a, fun j o' hj hj' => ?_⟩
      rcases e3 j o' hj' with ⟨_, q'⟩ | ⟨_, rfl⟩
      · exact b j o' hj q'
      · have := h.bound i o q; show m.cells.length ≠ _; omega
    · refine ⟨h.more, fun j o' hj hj' => ?_⟩
      rcases e3 j o' hj' with ⟨_, q'⟩ | ⟨rfl, _⟩
      · have := h.bound j o' q'; show _ ≠ m.cells.length; omega
      · exact absurd rfl hj
  · intro c hc
    rw [c1 c (lt_of_lt_of_le hc h.more)]; exact h.cells c hc
  · intro i hi
    rw [e1 i (lt_of_lt_of_le hi h.le)]; exact h.envs i hi

theorem Inv.write (h : Inv nin m0 st m v) {x : ℕ} (hx : st[x]? = some .own) (l : List V) :
    Inv nin m0 st (memOps.write m x l) (valOps.write v x l) := by
  have hlt : x < st.length := (List.getElem?_eq_some_iff.1 hx).1
  obtain ⟨o, ho⟩ := h.exists hlt
  obtain ⟨ho1, ho2⟩ := h.own x o hx ho
  have hm : memOps.write m x l = { m with cells := m.cells.modify o.cell fun c => { c with vals := l } } := by
    show (match m.env[x]? with | some o => _ | none => _) = _
    rw [ho]
  rw [hm]
  refine ⟨h.len1, by simp [valOps, h.len2], h.le, ?_, ?_, ?_, h.shared, h.own, ?_, h.envs⟩
  · intro i
    have hb := h.bound x o ho
    by_cases hi : i = x
    · subst hi
      rw [get_some (m := { m with cells := m.cells.modify o.cell fun c => { c with vals := l } }) ho]
      simp only [mod_get, if_true]
      have hv := h.val i
      rw [get_some ho] at hv
      show _ = ((v.modify i _)[i]?).getD _
      rw [mod_get]
      have hvi : i < v.length := by rw [h.len2]; exact hlt
      rw [List.getElem?_eq_getElem hb, List.getElem?_eq_getElem hvi]
      change _ = (v[i]?).getD _ at hv
      rw [List.getElem?_eq_getElem hb, List.getElem?_eq_getElem hvi] at hv
      simp only [Option.map_some, Option.getD_some] at hv ⊢
      simp [← hv]
    · have : valOps.get (valOps.write v x l) i = valOps.get v i := by
        show ((v.modify x _)[i]?).getD _ = (v[i]?).getD _
        rw [mod_get, if_neg (fun e => hi e.symm)]
      rw [this, ← h.val i]
      cases hi' : m.env[i]? with
      | none => rw [get_none hi', get_none (by exact hi')]
      | some o' =>
        rw [get_some hi', get_some (m := { m with cells := m.cells.modify o.cell fun c => { c with vals := l } }) hi']
        simp only [mod_get]
        rw [if_neg (fun e => ho2 i o' hi hi' e.symm)]
  · intro i o' hi
    show _ < (m.cells.modify _ _).length
    rw [List.length_modify]; exact h.bound i o' hi
  · show _ ≤ (m.cells.modify _ _).length
    rw [List.length_modify]; exact h.more
  · intro c hc
    show (m.cells.modify _ _)[c]? = _
    rw [mod_get, if_neg (by omega)]
    exact h.cells c hc

theorem Inv.setmp (h : Inv nin m0 st m v) {x : ℕ} (hx : nin ≤ x) (p : Int) :
    Inv nin m0 st (memOps.setmp m x p) (valOps.setmp v x p) := by
  have e : ∀ (i : ℕ) (o : LObj), (memOps.setmp m x p).env[i]? = some o → ∃ o', m.env[i]? = some o' ∧ o.cell = o'.cell := by
    intro i o ho
    change (m.env.modify x _)[i]? = _ at ho
    rw [mod_get] at ho
    split at ho
    · obtain ⟨o', h1, h2⟩ := Option.map_eq_some_iff.1 ho
      exact ⟨o', h1, by rw [← h2]⟩
    · exact ⟨o, ho, rfl⟩
  refine ⟨by simp [memOps, h.len1], by simp [valOps, h.len2], h.le, ?_, ?_, h.more, ?_, ?_, h.cells, ?_⟩
  · intro i
    have hv := h.val i
    unfold Mem.get at hv ⊢
    show (match (m.env.modify x _)[i]? with | some o => _ | none => _) = ((v.modify x _)[i]?).getD _
    change _ = (v[i]?).getD _ at hv
    rw [mod_get, mod_get]
    cases hi : m.env[i]? with
    | none =>
      have : v[i]? = none := by
        rw [List.getElem?_eq_none_iff] at hi ⊢; rw [h.len2, ← h.len1]; exact hi
      rw [this]; by_cases c : x = i <;> simp [c]
    | some o =>
      rw [hi] at hv
      have hlt : i < v.length := by rw [h.len2, ← h.len1]; exact (List.getElem?_eq_some_iff.1 hi).1
      rw [List.getElem?_eq_getElem hlt] at hv ⊢
      simp only [Option.map_some, Option.getD_some] at hv ⊢
      by_cases c : x = i
      · simp only [c, if_true, Option.map_some, Option.getD_some, ← hv]; rfl
      · simp only [c, if_false]; exact hv
  · intro i o ho
    obtain ⟨o', h1, h2⟩ := e i o ho
    rw [h2]; exact h.bound i o' h1
  · intro i o hs ho
    obtain ⟨o', h1, h2⟩ := e i o ho
    rw [h2]; exact h.shared i o' hs h1
  · intro i o hs ho
    obtain ⟨o', h1, h2⟩ := e i o ho
    obtain ⟨a, b⟩ := h.own i o' hs h1
    refine ⟨h2 ▸ a, fun j oj hj hoj => ?_⟩
    obtain ⟨oj', h3, h4⟩ := e j oj hoj
    rw [h2, h4]
    exact b j oj' hj h3
  · intro i hi
    show (m.env.modify x _)[i]? = _
    rw [mod_get, if_neg (by omega)]
    exact h.envs i hi

theorem Inv.rename (h : Inv nin m0 st m v) {x : ℕ} (hx : st[x]? = some .own ∨ st[x]? = some .shared) :
    Inv nin m0 st (memOps.rename m x) (valOps.rename v x) := by
  have hlt : x < st.length := by
    rcases hx with q | q <;> exact (List.getElem?_eq_some_iff.1 q).1
  obtain ⟨o, ho⟩ := h.exists hlt
  have hk : m0.cells.length ≤ o.cell := by
    rcases hx with q | q
    · exact (h.own x o q ho).1
    · exact h.shared x o q ho
  have hm : memOps.rename m x = { m with cells := m.cells.modify o.cell fun c => { c with name := o.name } } := by
    show (match m.env[x]? with | some o => _ | none => _) = _
    rw [ho]
  rw [hm]
  refine ⟨h.len1, h.len2, h.le, ?_, ?_, ?_, h.shared, h.own, ?_, h.envs⟩
  · intro i
    rw [show valOps.get (valOps.rename v x) i = valOps.get v i from rfl, ← h.val i]
    cases hi' : m.env[i]? with
    | none => rw [get_none hi', get_none (by exact hi')]
    | some o' =>
      rw [get_some hi', get_some (m := { m with cells := m.cells.modify o.cell fun c => { c with name := o.name } }) hi']
      simp only [mod_get]
      cases m.cells[o'.cell]? with
      | none => split <;> rfl
      | some c => split <;> rfl
  · intro i o' hi
    show _ < (m.cells.modify _ _).length
    rw [List.length_modify]; exact h.bound i o' hi
  · show _ ≤ (m.cells.modify _ _).length
    rw [List.length_modify]; exact h.more
  · intro c hc
    show (m.cells.modify _ _)[c]? = _
    rw [mod_get, if_neg (by omega)]
    exact h.cells c hc

theorem Inv.share (h : Inv nin m0 st m v) {x : ℕ} (hx : x < st.length) (n : String) (q : Own)
    (hq : (st[x]? = some .caller ∧ q = .caller) ∨ (st[x]? ≠ some .caller ∧ q = .shared)) :
    Inv nin m0 (if q = .caller then st ++ [.caller] else st.set x .shared ++ [.shared]) (memOps.share m x n) (valOps.share v x n) := by
  obtain ⟨o, ho⟩ := h.exists hx
  have hvx : x < v.length := by rw [h.len2]; exact hx
  have hm : memOps.share m x n = { m with env := m.env ++ [{ o with name := n }] } := by
    show (match m.env[x]? with | some o => _ | none => _) = _
    rw [ho]
  have hv : valOps.share v x n = v ++ [v[x]] := by
    show (match v[x]? with | some l => _ | none => _) = _
    rw [List.getElem?_eq_getElem hvx]
  have hgx := h.val x
  rw [get_some ho] at hgx
  change _ = (v[x]?).getD _ at hgx
  rw [List.getElem?_eq_getElem hvx] at hgx
  rw [hm, hv]
  set env' := m.env ++ [{ o with name := n }] with henv
  set st' := (if q = .caller then st ++ [.caller] else st.set x .shared ++ [.shared]) with hst
  have hl : st'.length = st.length + 1 := by rw [hst]; split <;> simp
  have hlast : st'[st.length]? = some q := by
    rw [hst]
    rcases hq with ⟨_, rfl⟩ | ⟨_, rfl⟩
    · rw [if_pos rfl, List.getElem?_append_right (le_refl _)]; simp
    · rw [if_neg (by decide), List.getElem?_append_right (by simp)]; simp
  have hold : ∀ i, i < st.length → i ≠ x → st'[i]? = st[i]? := by
    intro i hi hix
    rw [hst]; split
    · rw [List.getElem?_append_left hi]
    · rw [List.getElem?_append_left (by simpa using hi), List.getElem?_set_ne (fun e => hix e.symm)]
  have hx' : st'[x]? = some (if q = .caller then .caller else .shared) := by
    rw [hst]; rcases hq with ⟨a, rfl⟩ | ⟨_, rfl⟩
    · rw [if_pos rfl, if_pos rfl, List.getElem?_append_left hx, a]
    · rw [if_neg (by decide), if_neg (by decide), List.getElem?_append_left (by simpa using hx), List.getElem?_set_self hx]
  have e1 : ∀ i, i < st.length → env'[i]? = m.env[i]? := fun i hi => List.getElem?_append_left (by rw [h.len1]; exact hi)
  have e2 : env'[st.length]? = some { o with name := n } := by
    rw [henv, List.getElem?_append_right (by rw [h.len1]), h.len1]; simp
  have e3 : ∀ (i : ℕ) (o' : LObj), env'[i]? = some o' →
      (i < st.length ∧ m.env[i]? = some o') ∨ (i = st.length ∧ o' = { o with name := n }) := by
    intro i o' ho'
    rcases lt_trichotomy i st.length with c | c | c
    · exact .inl ⟨c, by rw [← e1 i c]; exact ho'⟩
    · subst c; rw [e2] at ho'; exact .inr ⟨rfl, (Option.some.inj ho').symm⟩
    · rw [List.getElem?_eq_none (by rw [henv]; simp only [List.length_append, List.length_singleton, h.len1]; omega)] at ho'
      cases ho'
  have hxcell : q = .shared → m0.cells.length ≤ o.cell := by
    rintro rfl
    rcases hq with ⟨_, c⟩ | ⟨c, _⟩
    · cases c
    · cases hs : st[x]? with
      | none => rw [List.getElem?_eq_none_iff] at hs; omega
      | some w =>
        cases w with
        | caller => exact absurd hs c
        | shared => exact h.shared x o hs ho
        | own => exact (h.own x o hs ho).1
  refine ⟨?_, ?_, ?_, ?_, ?_, h.more, ?_, ?_, h.cells, ?_⟩
  · rw [hl]; show env'.length = _; rw [henv]; simp [h.len1]
  · rw [hl]; simp [h.len2]
  · rw [hl]; have := h.le; omega
  · intro i
    rcases lt_trichotomy i st.length with c | c | c
    · obtain ⟨oi, hoi⟩ := h.exists c
      rw [get_some (m := { m with env := env' }) (by show env'[i]? = _; rw [e1 i c]; exact hoi), ← get_some hoi, h.val i]
      show _ = ((v ++ [v[x]])[i]?).getD _
      rw [List.getElem?_append_left (by rw [h.len2]; exact c)]
      rfl
    · subst c
      rw [get_some (m := { m with env := env' }) e2]
      show _ = ((v ++ [v[x]])[st.length]?).getD _
      rw [List.getElem?_append_right (by rw [h.len2]), h.len2]
      simpa using hgx
    · rw [get_none (m := { m with env := env' }) (by
        show env'[i]? = _
        rw [List.getElem?_eq_none (by rw [henv]; simp only [List.length_append, List.length_singleton, h.len1]; omega)])]
      show _ = ((v ++ [v[x]])[i]?).getD _
      rw [List.getElem?_eq_none (by simp only [List.length_append, List.length_singleton, h.len2]; omega)]
      rfl
  · intro i o' ho'
    rcases e3 i o' ho' with ⟨_, c⟩ | ⟨_, rfl⟩
    · exact h.bound i o' c
    · exact h.bound x o ho
  · intro i o' hs ho'
    rcases e3 i o' ho' with ⟨c, d⟩ | ⟨rfl, rfl⟩
    · by_cases hix : i = x
      · subst hix
        rw [ho] at d; cases d
        rw [hx'] at hs
        rcases hq with ⟨_, rfl⟩ | ⟨_, rfl⟩
        · simp at hs
        · exact hxcell rfl
      · rw [hold i c hix] at hs; exact h.shared i o' hs d
    · rw [hlast] at hs; exact hxcell (Option.some.inj hs)
  · intro i o' hs ho'
    rcases e3 i o' ho' with ⟨c, d⟩ | ⟨rfl, rfl⟩
    · have hix : i ≠ x := by
        rintro rfl
        rw [hx'] at hs
        split at hs <;> cases hs
      rw [hold i c hix] at hs
      obtain ⟨a, b⟩ := h.own i o' hs d
      refine ⟨a, fun j oj hj hoj => ?_⟩
      rcases e3 j oj hoj with ⟨c', d'⟩ | ⟨_, rfl⟩
      · exact b j oj hj d'
      · exact b x o (fun e => hix e.symm) ho
    · rw [hlast] at hs
      rcases hq with ⟨_, rfl⟩ | ⟨_, rfl⟩ <;> cases hs
  · intro i hi
    show env'[i]? = _
    rw [e1 i (lt_of_lt_of_le hi h.le)]; exact h.envs i hi

theorem Inv.pushes (n : ℕ) (f : ℕ → Line V) : ∀ {st : List Own} {m : Mem V} {v : List (Line V)}, Inv nin m0 st m v →
    Inv nin m0 (st ++ List.replicate n .own) ((List.range n).foldl (fun s i => memOps.push s (f i)) m)
      ((List.range n).foldl (fun s i => valOps.push s (f i)) v) := by
  induction n with
  | zero => intro st m v h; simpa using h
  | succ n ih =>
    intro st m v h
    rw [List.range_succ, List.foldl_append, List.foldl_append, List.replicate_succ', ← List.append_assoc]
    exact (ih h).push (f n)

theorem Inv.writes : ∀ (ps : List (ℕ × List V)) {m : Mem V} {v : List (Line V)}, Inv nin m0 st m v →
    (∀ p ∈ ps, st[p.1]? = some .own) →
    Inv nin m0 st (ps.foldl (fun s p => memOps.write s p.1 p.2) m) (ps.foldl (fun s p => valOps.write s p.1 p.2) v) := by
  intro ps
  induction ps with
  | nil => intro m v h _; exact h
  | cons p ps ih =>
    intro m v h hp
    exact ih (h.write (hp p (by simp)) p.2) fun p' hp' => hp p' (by simp [hp'])

theorem patches_mem (minidx : Int) : ∀ (args : List ℕ) (wr : List Bool) (ls : List (Line V)) (ns : List (List V)) (p : ℕ × List V),
    p ∈ patches minidx args wr ls ns → p.1 ∈ written args wr := by
  intro args
  induction args with
  | nil => intro wr ls ns p hp; simp [patches] at hp
  | cons x xs ih =>
    intro wr ls ns p hp
    cases wr with
    | nil => simp [patches] at hp
    | cons w ws =>
      cases ls with
      | nil => simp [patches] at hp
      | cons l ls =>
        cases ns with
        | nil => simp [patches] at hp
        | cons n ns =>
          unfold patches at hp
          rw [List.mem_append] at hp
          unfold written
          simp only [List.zip_cons_cons, List.filter_cons]
          rcases hp with hp | hp
          · cases w with
            | false => simp at hp
            | true => simp only [if_true, List.mem_singleton] at hp; subst hp; simp
          · have := ih ws ls ns p hp
            unfold written at this
            cases w
            · simpa using this
            · simp only [if_true, List.map_cons, List.mem_cons]; exact .inr this

/-- One step which follows the rules: the value view goes along, the objects of the caller stay as they are. -/
theorem Inv.step (h : Inv nin m0 st m v) (t : Stmt V) {st' : List Own} (hc : checkStep nin st t = some st') :
    (step memOps m t).2 = (step valOps v t).2 ∧
    ((step memOps m t).2 = none → Inv nin m0 st' (step memOps m t).1 (step valOps v t).1) ∧
    ∃ st'', Inv nin m0 st'' (step memOps m t).1 (step valOps v t).1 := by
  have hmap : ∀ args : List ℕ, args.map (memOps.get m) = args.map (valOps.get v) := fun args =>
    List.map_congr_left fun x _ => h.val x
  have hval : ∀ x, memOps.get m x = valOps.get v x := h.val
  cases t with
  | «calc» f args =>
    unfold Heap.step
    simp only [hmap args]
    simp only [checkStep] at hc
    split at hc
    · cases hc
      cases f (args.map (valOps.get v)) with
      | error e => exact ⟨rfl, fun c => (by cases c), st, h⟩
      | ok l => exact ⟨rfl, fun _ => h.push l, _, h.push l⟩
    · cases hc
  | wrap x n =>
    simp only [checkStep] at hc
    unfold Heap.step
    simp only []
    cases hs : st[x]? with
    | none => rw [hs] at hc; cases hc
    | some w =>
      have hlt := (List.getElem?_eq_some_iff.1 hs).1
      rw [hs] at hc
      cases w with
      | caller =>
        simp only [Option.some.injEq] at hc
        have := h.share hlt n .caller (.inl ⟨hs, rfl⟩)
        rw [if_pos rfl, hc] at this
        exact ⟨trivial, fun _ => this, _, this⟩
      | shared =>
        simp only [Option.some.injEq] at hc
        have := h.share hlt n .shared (.inr ⟨by rw [hs]; simp, rfl⟩)
        rw [if_neg (by decide), hc] at this
        exact ⟨trivial, fun _ => this, _, this⟩
      | own =>
        simp only [Option.some.injEq] at hc
        have := h.share hlt n .shared (.inr ⟨by rw [hs]; simp, rfl⟩)
        rw [if_neg (by decide), hc] at this
        exact ⟨trivial, fun _ => this, _, this⟩
  | period x inc val =>
    unfold Heap.step
    simp only [hval x]
    cases val with
    | none =>
      simp only [checkStep] at hc
      split at hc
      · rename_i hx
        cases hc
        have := h.setmp hx.1 (Line.period inc none (valOps.get v x)).minperiod
        exact ⟨trivial, fun _ => this, _, this⟩
      · cases hc
    | some w =>
      simp only [checkStep] at hc
      split at hc
      · rename_i hx
        cases hc
        have := (h.write hx.1 (Line.period inc (some w) (valOps.get v x)).series).setmp hx.2
          (Line.period inc (some w) (valOps.get v x)).minperiod
        exact ⟨trivial, fun _ => this, _, this⟩
      · cases hc
  | setval x i0 i1 w =>
    unfold Heap.step
    simp only [hval x]
    simp only [checkStep] at hc
    split at hc
    · rename_i hx
      cases hc
      have := h.write hx.1 (Line.setval i0 i1 w (valOps.get v x)).series
      exact ⟨trivial, fun _ => this, _, this⟩
    · cases hc
  | «apply» raw g x args wr k =>
    simp only [checkStep] at hc
    split at hc
    · rename_i hx
      cases hc
      unfold Heap.step
      simp only [hval x, hmap args]
      generalize valOps.get v x = l
      generalize args.map (valOps.get v) = ls
      generalize applyMp l ls = mp
      generalize g (pyFrom l.series (mp - 1)) (ls.map fun a => pyFrom a.series (mp - 1)) = o
      have hps : ∀ p ∈ (if raw then [] else [(x, patch l.series (mp - 1) o.self)]) ++ patches (mp - 1) args wr ls o.args,
          st[p.1]? = some .own := by
        intro p hp
        unfold applyOk at hx
        simp only [Bool.and_eq_true, List.all_eq_true, decide_eq_true_eq] at hx
        refine (hx.1.1 p.1 ?_).1
        rw [List.mem_append] at hp ⊢
        rcases hp with hp | hp
        · left
          cases raw
          · simp only [Bool.false_eq_true, if_false, List.mem_singleton] at hp ⊢; rw [hp]
          · simp at hp
        · exact .inr (patches_mem _ _ _ _ _ _ hp)
      have hw := h.writes _ hps
      cases o.res with
      | error e => exact ⟨rfl, fun c => (by cases c), st, hw⟩
      | ok rs =>
        have := hw.pushes k (fun i => clone l (setFrom l.series.length nan (mp - 1) (rs.getD i [])) mp)
        exact ⟨rfl, fun _ => this, _, this⟩
    · cases hc
  | series x =>
    simp only [checkStep] at hc
    unfold Heap.step
    simp only []
    cases hs : st[x]? with
    | none => rw [hs] at hc; cases hc
    | some w =>
      rw [hs] at hc
      cases w with
      | caller => cases hc
      | shared =>
        simp only [Option.some.injEq] at hc; subst hc
        have := h.rename (.inr hs)
        exact ⟨trivial, fun _ => this, _, this⟩
      | own =>
        simp only [Option.some.injEq] at hc; subst hc
        have := h.rename (.inl hs)
        exact ⟨trivial, fun _ => this, _, this⟩

theorem Inv.run : ∀ (p : List (Stmt V)) {st st' : List Own} {m : Mem V} {v : List (Line V)}, Inv nin m0 st m v →
    check nin st p = some st' →
    (run memOps m p).2 = (run valOps v p).2 ∧ ∃ st'', Inv nin m0 st'' (run memOps m p).1 (run valOps v p).1 := by
  intro p
  induction p with
  | nil => intro st st' m v h _; exact ⟨rfl, st, h⟩
  | cons t ts ih =>
    intro st st' m v h hc
    unfold check at hc
    obtain ⟨st1, h1, h2⟩ := Option.bind_eq_some_iff.1 hc
    obtain ⟨a, b, c⟩ := h.step t h1
    unfold Heap.run
    generalize hm : Heap.step memOps m t = sm at a b c
    generalize hv : Heap.step valOps v t = sv at a b c
    obtain ⟨m1, e1⟩ := sm
    obtain ⟨v1, e2⟩ := sv
    simp only at a b c
    subst a
    cases e1 with
    | none => exact ih (b rfl) h2
    | some e => exact ⟨rfl, c⟩

/-! ## The theorems -/

/-- What the caller has: `m` is the memory before, `m'` after.  Every Series object of the caller holds the same values
under the same name, and every Line object of the caller is as it was. -/
def _root_.Spec.Untouched (m m' : Mem V) : Prop :=
  (∀ c < m.cells.length, m'.cells[c]? = m.cells[c]?) ∧ (∀ i < m.env.length, m'.env[i]? = m.env[i]?)

/-- A memory as the caller can have it: each Line object refers to an existing Series. -/
def _root_.Spec.Sound (m : Mem V) : Prop := ∀ (i : ℕ) (o : LObj), m.env[i]? = some o → o.cell < m.cells.length

theorem Inv.start (m : Mem V) (hm : Spec.Sound m) :
    Inv m.env.length m (List.replicate m.env.length .caller) m ((List.range m.env.length).map m.get) := by
  have hno : ∀ (i : ℕ) (q : Own), q ≠ .caller → (List.replicate m.env.length Own.caller)[i]? ≠ some q := by
    intro i q hq e
    rw [List.getElem?_replicate] at e
    split at e
    · exact hq (Option.some.inj e).symm
    · cases e
  refine ⟨by simp, by simp, by simp, ?_, hm, le_refl _, ?_, ?_, fun _ _ => rfl, fun _ _ => rfl⟩
  · intro i
    show _ = (((List.range m.env.length).map m.get)[i]?).getD _
    by_cases h : i < m.env.length
    · simp [List.getElem?_range h]
    · rw [List.getElem?_eq_none (by simpa using h), get_none (List.getElem?_eq_none (by omega))]
      rfl
  · intro i o h; exact absurd h (hno i _ (by decide))
  · intro i o h; exact absurd h (hno i _ (by decide))

/-- **C67.** A program which follows the rules leaves everything of the caller untouched, for any memory (the inputs may
be the same Series several times), whether it ends normally or with an exception. -/
theorem C67_unchanged (m : Mem V) (hm : Spec.Sound m) (p : List (Stmt V)) {st : List Own}
    (hp : check m.env.length (List.replicate m.env.length .caller) p = some st) :
    Spec.Untouched m (run memOps m p).1 := by
  obtain ⟨_, st', h⟩ := (Inv.start m hm).run p hp
  exact ⟨h.cells, h.envs⟩

/-- **C67.** For such a program sharing cannot be noticed: each variable has the value, and an exception is raised, as
in the functional model the other theorems are about. -/
theorem C67_values (m : Mem V) (hm : Spec.Sound m) (p : List (Stmt V)) {st : List Own}
    (hp : check m.env.length (List.replicate m.env.length .caller) p = some st) :
    (run memOps m p).2 = (run valOps ((List.range m.env.length).map m.get) p).2 ∧
    ∀ i, (run memOps m p).1.get i = valOps.get (run valOps ((List.range m.env.length).map m.get) p).1 i := by
  obtain ⟨a, st', h⟩ := (Inv.start m hm).run p hp
  exact ⟨a, h.val⟩

/-- **C67.** What a function handed to `_apply` writes into the array it gets shows in the line itself, at the delivered bars;
the bars before keep their values. -/
theorem C67_apply_writes (m : Mem V) (x : ℕ) (o : LObj) (hx : m.env[x]? = some o) (hc : o.cell < m.cells.length)
    (g : List V → List (List V) → Out V) (d : ℕ) (hd : (m.get x).minperiod = d + 1) (hlen : d ≤ (m.get x).series.length) :
    ((step memOps m (.apply false g x [] [] 1)).1.get x).series =
      (m.get x).series.take d ++ (g ((m.get x).series.drop d) []).self := by
  have hxl : x < m.env.length := (List.getElem?_eq_some_iff.1 hx).1
  have hst : pyStart (m.get x).series.length ((m.get x).minperiod - 1) = d := by
    unfold pyStart
    rw [hd, if_pos (by omega)]
    omega
  have hw : ∀ v, ((memOps.write m x v).get x).series = v := by
    intro v
    show (Mem.get (match m.env[x]? with | some o => _ | none => m) x).series = v
    rw [hx]
    unfold Mem.get
    simp only [hx, List.getElem?_modify, if_pos]
    simp [List.getElem?_eq_getElem hc]
  have hpush : ∀ (m' : Mem V) (l : Line V), m'.env[x]? = some o → o.cell < m'.cells.length →
      ((memOps.push m' l).get x).series = (m'.get x).series := by
    intro m' l h1 h2
    have hl : x < m'.env.length := (List.getElem?_eq_some_iff.1 h1).1
    show (Mem.get ⟨m'.cells ++ [_], m'.env ++ [_]⟩ x).series = _
    unfold Mem.get
    simp only [List.getElem?_append_left hl, h1, List.getElem?_append_left h2]
  have henv : ∀ v, (memOps.write m x v).env[x]? = some o ∧ o.cell < (memOps.write m x v).cells.length := by
    intro v
    show (match m.env[x]? with | some o => _ | none => m : Mem V).env[x]? = some o ∧ o.cell < (match m.env[x]? with | some o => _ | none => m : Mem V).cells.length
    rw [hx]
    exact ⟨hx, by simpa using hc⟩
  have hmp : applyMp (m.get x) ([].map m.get) = (m.get x).minperiod := rfl
  have key : patch (m.get x).series ((m.get x).minperiod - 1) (g (pyFrom (m.get x).series ((m.get x).minperiod - 1)) []).self =
      (m.get x).series.take d ++ (g ((m.get x).series.drop d) []).self := by
    unfold patch pyFrom
    rw [hst]
  rw [← key]
  unfold step
  simp only [patches, List.append_nil, Bool.false_eq_true, if_false, List.foldl_cons, List.foldl_nil, List.map_nil]
  change ((match (g (pyFrom (m.get x).series ((m.get x).minperiod - 1)) []).res with | .error e => _ | .ok rs => _ :
    Mem V × Option Err).1.get x).series = _
  split
  · exact hw _
  · simp only [List.range_one, List.foldl_cons, List.foldl_nil]
    refine (hpush _ _ (henv _).1 (henv _).2).trans (hw _)

/-- a line which delivers from its second bar on; the function writes zeros -/
example : ((step memOps (⟨[⟨[lit 7, lit 8, lit 9], ""⟩], [⟨0, 2, "x"⟩]⟩ : Mem (Ext ℚ))
    (.apply false (fun s _ => ⟨s.map fun _ => lit 0, [], .error .typeError⟩) 0 [] [] 1)).1.get 0).series = [lit 7, lit 0, lit 0] := by decide +kernel

/-- a statement which makes a new object from existing ones, out of `n` -/
def _root_.Spec.Making (n : ℕ) : Stmt V → Prop
  | .calc _ args => ∀ a ∈ args, a < n
  | .wrap x _ => x < n
  | _ => False

theorem check_making : ∀ (p : List (Stmt V)) (nin : ℕ) (st : List Own),
    (∀ (k : ℕ) (t : Stmt V), p[k]? = some t → Spec.Making (st.length + k) t) → ∃ st', check nin st p = some st' := by
  intro p
  induction p with
  | nil => intro nin st _; exact ⟨st, rfl⟩
  | cons t ts ih =>
    intro nin st h
    have h0 := h 0 t rfl
    have hstep : ∃ st1, checkStep nin st t = some st1 ∧ st1.length = st.length + 1 := by
      cases t with
      | «calc» f args =>
        refine ⟨st ++ [.own], ?_, by simp⟩
        simp only [checkStep]
        rw [if_pos]
        simpa [Spec.Making] using h0
      | wrap x n =>
        have hx : x < st.length := by simpa [Spec.Making] using h0
        simp only [checkStep]
        rw [List.getElem?_eq_getElem hx]
        cases st[x] with
        | caller => exact ⟨_, rfl, by simp⟩
        | shared => exact ⟨_, rfl, by simp⟩
        | own => exact ⟨_, rfl, by simp⟩
      | period x i v => exact absurd h0 (by simp [Spec.Making])
      | setval x a b c => exact absurd h0 (by simp [Spec.Making])
      | «apply» a b c d e f => exact absurd h0 (by simp [Spec.Making])
      | series x => exact absurd h0 (by simp [Spec.Making])
    obtain ⟨st1, e1, e2⟩ := hstep
    obtain ⟨st', e3⟩ := ih nin st1 (fun k t' hk => by
      have := h (k + 1) t' (by simpa using hk)
      rw [e2]; rw [show st.length + 1 + k = st.length + (k + 1) by omega]; exact this)
    exact ⟨st', by unfold check; rw [e1]; exact e3⟩

/-- **C67.** An indicator which only uses operations making new lines (operators, pandas methods, windows, `_ewm`, other
such indicators) and assigns them to outputs leaves the caller's data untouched. -/
theorem C67_pure (m : Mem V) (hm : Spec.Sound m) (p : List (Stmt V))
    (hp : ∀ (k : ℕ) (t : Stmt V), p[k]? = some t → Spec.Making (m.env.length + k) t) :
    Spec.Untouched m (run memOps m p).1 := by
  obtain ⟨st, h⟩ := check_making p m.env.length (List.replicate m.env.length .caller) (by simpa using hp)
  exact C67_unchanged m hm p h

/-! ## The initialisers of the library -/

theorem two_env {m : Mem V} (h2 : m.env.length = 2) : (List.range m.env.length).map m.get = [m.get 0, m.get 1] := by
  rw [h2]; rfl

theorem one_env {m : Mem V} (h1 : m.env.length = 1) : (List.range m.env.length).map m.get = [m.get 0] := by
  rw [h1]; rfl

/-- what an initialiser with result `r` at variable `k` does -/
def _root_.Spec.Gives (m : Mem V) (p : List (Stmt V)) (k : ℕ) (r : Except Err (Line V)) : Prop :=
  Spec.Untouched m (run memOps m p).1 ∧
  match r with
  | .ok l => (run memOps m p).2 = none ∧ (run memOps m p).1.get k = l
  | .error e => (run memOps m p).2 = some e

theorem gives (m : Mem V) (hm : Spec.Sound m) (p : List (Stmt V)) {st : List Own} (k : ℕ) (r : Except Err (Line V))
    (hp : check m.env.length (List.replicate m.env.length .caller) p = some st)
    (hr : match r with
      | .ok l => (run valOps ((List.range m.env.length).map m.get) p).2 = none ∧
          valOps.get (run valOps ((List.range m.env.length).map m.get) p).1 k = l
      | .error e => (run valOps ((List.range m.env.length).map m.get) p).2 = some e) : Spec.Gives m p k r := by
  refine ⟨C67_unchanged m hm p hp, ?_⟩
  obtain ⟨a, b⟩ := C67_values m hm p hp
  cases r with
  | ok l => exact ⟨a.trans hr.1, (b k).trans hr.2⟩
  | error e => exact a.trans hr

/-- **C67** for `obv`, with and without ta-lib compatibility. -/
theorem C67_obv (m : Mem V) (hm : Spec.Sound m) (h2 : m.env.length = 2) (talib : Bool) (q : ℕ) :
    Spec.Gives m (obvProg talib q) 6 (.ok (Ind.obv talib q (m.get 0) (m.get 1))) := by
  cases talib with
  | false => exact gives m hm _ (st := [.caller, .caller, .caller, .caller, .own, .shared, .shared]) 6 _ (by rw [h2]; rfl)
              (by rw [two_env h2]; exact ⟨rfl, rfl⟩)
  | true => exact gives m hm _ (st := [.caller, .caller, .caller, .caller, .own, .shared, .shared]) 6 _ (by rw [h2]; rfl)
              (by rw [two_env h2]; exact ⟨rfl, rfl⟩)

theorem take_buf (v : V) (a : Line V) (i : Int) (k : ℕ) :
    (pyFrom (fillWith v a).series i).take k = List.replicate (min k (pyFrom a.series i).length) v := by
  unfold fillWith pyFrom
  simp [List.drop_replicate, List.take_replicate]

theorem applyMp2 (a b : Line V) (v : V) : applyMp a [b, fillWith v a] = max a.minperiod b.minperiod := by
  show max (max a.minperiod b.minperiod) a.minperiod = _
  omega

theorem run_ok {σ : Type} {O : Ops V σ} {s s' : σ} {t : Stmt V} (h : step O s t = (s', none)) (ts : List (Stmt V)) :
    run O s (t :: ts) = run O s' ts := by
  conv_lhs => unfold Heap.run
  rw [h]

theorem run_err {σ : Type} {O : Ops V σ} {s s' : σ} {t : Stmt V} {e : Err} (h : step O s t = (s', some e)) (ts : List (Stmt V)) :
    run O s (t :: ts) = (s', some e) := by
  conv_lhs => unfold Heap.run
  rw [h]

theorem sar_gives (m : Mem V) (hm : Spec.Sound m) (h2 : m.env.length = 2) (f : List (V × V) → Except Err (List V))
    (hf : ∀ xs r, f xs = .ok r → 2 ≤ xs.length ∧ ∃ t, r = nan :: t) :
    Spec.Gives m (sarProg f) 6 (Ind.applySar f (m.get 0) (m.get 1)) := by
  refine gives m hm _ (st := [.caller, .caller, .caller, .caller, .own, .shared, .shared]) 6 _ (by rw [h2]; rfl) ?_
  rw [two_env h2]
  generalize m.get 0 = h
  generalize m.get 1 = l
  unfold Ind.applySar
  simp only []
  have start : run valOps [h, l] (sarProg f) = run valOps [h, l, h, l, fillWith nan h]
      [.apply true (sarBuf f) 2 [3, 4] [false, true] 1, .period 5 1 none, .wrap 5 "sar"] := by
    unfold sarProg
    rw [run_ok (s' := [h, l, h]) rfl, run_ok (s' := [h, l, h, l]) rfl, run_ok (s' := [h, l, h, l, fillWith nan h]) rfl]
  rw [start]
  have hg : ([3, 4] : List ℕ).map (valOps.get [h, l, h, l, fillWith nan h]) = [l, fillWith nan h] := rfl
  have hg2 : valOps.get [h, l, h, l, fillWith nan h] 2 = h := rfl
  cases hr : f (List.zip (pyFrom h.series (max h.minperiod l.minperiod - 1)) (pyFrom l.series (max h.minperiod l.minperiod - 1))) with
  | error e =>
    have hs : step valOps [h, l, h, l, fillWith nan h] (.apply true (sarBuf f) 2 [3, 4] [false, true] 1) =
        ([h, l, h, l, ⟨patch (fillWith nan h).series (max h.minperiod l.minperiod - 1)
          (pyFrom (fillWith nan h).series (max h.minperiod l.minperiod - 1)), h.minperiod⟩], some e) := by
      unfold Heap.step
      simp only [hg, hg2, applyMp2, List.map_cons, List.map_nil, sarBuf, hr]
      rfl
    rw [run_err hs]
  | ok r =>
    obtain ⟨hl, t, rfl⟩ := hf _ _ hr
    have hbuf : (pyFrom (fillWith nan h).series (max h.minperiod l.minperiod - 1)).take 1 = [nan] := by
      rw [take_buf]
      have : 1 ≤ (pyFrom h.series (max h.minperiod l.minperiod - 1)).length := by
        rw [List.length_zip] at hl; omega
      rw [Nat.min_eq_left this]; rfl
    have hs : step valOps [h, l, h, l, fillWith nan h] (.apply true (sarBuf f) 2 [3, 4] [false, true] 1) =
        ([h, l, h, l, ⟨patch (fillWith nan h).series (max h.minperiod l.minperiod - 1) (nan :: t), h.minperiod⟩,
          clone h (setFrom h.series.length nan (max h.minperiod l.minperiod - 1) (nan :: t)) (max h.minperiod l.minperiod)], none) := by
      unfold Heap.step
      simp only [hg, hg2, applyMp2, List.map_cons, List.map_nil, sarBuf, hr, hbuf]
      rfl
    rw [run_ok hs]
    exact ⟨rfl, rfl⟩

theorem sarize_ok (AF AFMAX : V) (xs : List (V × V)) (r : List V) (h : Ind.sarize AF AFMAX xs = .ok r) :
    2 ≤ xs.length ∧ ∃ t, r = nan :: t := by
  match xs, h with
  | a :: b :: t, h =>
    simp only [Ind.sarize, Except.ok.injEq] at h
    exact ⟨by simp, _, h.symm⟩

theorem sarExtize_ok (P : Ind.SarExtP V) (xs : List (V × V)) (r : List V) (h : Ind.sarExtize P xs = .ok r) :
    2 ≤ xs.length ∧ ∃ t, r = nan :: t := by
  match xs, h with
  | a :: b :: t, h =>
    simp only [Ind.sarExtize, Except.ok.injEq] at h
    exact ⟨by simp, _, h.symm⟩

/-- **C67** for `sar`: also when it raises an IndexError for lack of bars. -/
theorem C67_sar (m : Mem V) (hm : Spec.Sound m) (h2 : m.env.length = 2) (AF AFMAX : V) :
    Spec.Gives m (sarProg (Ind.sarize AF AFMAX)) 6 (Ind.sar AF AFMAX (m.get 0) (m.get 1)) :=
  sar_gives m hm h2 _ (sarize_ok AF AFMAX)

/-- **C67** for `sarext`. -/
theorem C67_sarext (m : Mem V) (hm : Spec.Sound m) (h2 : m.env.length = 2) (P : Ind.SarExtP V) :
    Spec.Gives m (sarProg (Ind.sarExtize P)) 6 (Ind.sarext P (m.get 0) (m.get 1)) :=
  sar_gives m hm h2 _ (sarExtize_ok P)

/-- the price the Hilbert transform indicators work on: the input, or the middle of high and low -/
def price0 (two : Bool) (m : Mem V) : Line V := if two then Ind.htMid (m.get 0) (m.get 1) else m.get 0

/-- number of inputs given -/
def given (two : Bool) : ℕ := if two then 2 else 1

theorem applyMp1 (a : Line V) (v : V) : applyMp a [fillWith v a] = a.minperiod := by
  show max a.minperiod a.minperiod = _
  omega

theorem applyMp11 (a : Line V) (v w : V) : applyMp a [fillWith v a, fillWith w a] = a.minperiod := by
  show max (max a.minperiod a.minperiod) a.minperiod = _
  omega

theorem htPre_smooth (p0 : Line V) : period 3 none (htPre p0) = Ind.htSmooth p0 := rfl

theorem buf_eq {σ : Type} (start : ℕ) (f : ℕ → σ → σ) (out : σ → V) (s0 : σ) (a : Line V) (i : Int) :
    (pyFrom (fillWith (lit 0) a).series i).take start ++ Ind.htGo f out ((pyFrom a.series i).length - start) start s0 =
    Ind.htBuf start (pyFrom a.series i).length f out s0 := by
  rw [take_buf]; rfl

theorem mamaRest_val1 (F : HtFns V) (arctan : V → V) (fastlimit slowlimit : V) (h sm b1 b2 i1 q1 : Line V) :
    run valOps [h, h, sm, b1, b2, i1, q1] (mamaRest F arctan fastlimit slowlimit 1) =
    match ewmDyn { pval := 1, seed := .zero } (mamaAlpha fastlimit slowlimit (period (-1) (some (lit 0)) (mamaPhase F arctan i1 (period 6 none q1)))) h with
    | .error e => ([h, h, sm, b1, b2, i1, (period 6 none q1), (period (-1) (some (lit 0)) (mamaPhase F arctan i1 (period 6 none q1))), (mamaAlpha fastlimit slowlimit (period (-1) (some (lit 0)) (mamaPhase F arctan i1 (period 6 none q1))))], some e)
    | .ok m => match ewmDyn { pval := 0, seed := .zero } ((mamaAlpha fastlimit slowlimit (period (-1) (some (lit 0)) (mamaPhase F arctan i1 (period 6 none q1)))).mulS (lit (1 / 2))) m with
      | .error e => ([h, h, sm, b1, b2, i1, (period 6 none q1), (period (-1) (some (lit 0)) (mamaPhase F arctan i1 (period 6 none q1))), (mamaAlpha fastlimit slowlimit (period (-1) (some (lit 0)) (mamaPhase F arctan i1 (period 6 none q1)))), m], some e)
      | .ok f => ([h, h, sm, b1, b2, i1, (period 6 none q1), (period (-1) (some (lit 0)) (mamaPhase F arctan i1 (period 6 none q1))), (mamaAlpha fastlimit slowlimit (period (-1) (some (lit 0)) (mamaPhase F arctan i1 (period 6 none q1)))), period 20 (some nan) m, period 20 (some nan) f, period 20 (some nan) m, period 20 (some nan) f], none) := by
  unfold mamaRest
  simp only [Nat.reduceAdd]
  rw [run_ok (s' := [h, h, sm, b1, b2, i1, (period 6 none q1)]) rfl, run_ok (s' := [h, h, sm, b1, b2, i1, (period 6 none q1), mamaPhase F arctan i1 (period 6 none q1)]) rfl,
    run_ok (s' := [h, h, sm, b1, b2, i1, (period 6 none q1), (period (-1) (some (lit 0)) (mamaPhase F arctan i1 (period 6 none q1)))]) rfl, run_ok (s' := [h, h, sm, b1, b2, i1, (period 6 none q1), (period (-1) (some (lit 0)) (mamaPhase F arctan i1 (period 6 none q1))), (mamaAlpha fastlimit slowlimit (period (-1) (some (lit 0)) (mamaPhase F arctan i1 (period 6 none q1))))]) rfl]
  cases e1 : ewmDyn { pval := 1, seed := .zero } (mamaAlpha fastlimit slowlimit (period (-1) (some (lit 0)) (mamaPhase F arctan i1 (period 6 none q1)))) h with
  | error e =>
    refine run_err ?_ _
    show (match ewmDyn { pval := 1, seed := .zero } (mamaAlpha fastlimit slowlimit (period (-1) (some (lit 0)) (mamaPhase F arctan i1 (period 6 none q1)))) h with | .ok l => (_, none) | .error e => (_, some e)) = _
    rw [e1]
  | ok m =>
    rw [run_ok (s' := [h, h, sm, b1, b2, i1, (period 6 none q1), (period (-1) (some (lit 0)) (mamaPhase F arctan i1 (period 6 none q1))), (mamaAlpha fastlimit slowlimit (period (-1) (some (lit 0)) (mamaPhase F arctan i1 (period 6 none q1)))), m]) (by
      show (match ewmDyn { pval := 1, seed := .zero } (mamaAlpha fastlimit slowlimit (period (-1) (some (lit 0)) (mamaPhase F arctan i1 (period 6 none q1)))) h with | .ok l => (_, none) | .error e => (_, some e)) = _
      rw [e1]; rfl)]
    simp only []
    cases e2 : ewmDyn { pval := 0, seed := .zero } ((mamaAlpha fastlimit slowlimit (period (-1) (some (lit 0)) (mamaPhase F arctan i1 (period 6 none q1)))).mulS (lit (1 / 2))) m with
    | error e =>
      refine run_err ?_ _
      show (match ewmDyn { pval := 0, seed := .zero } ((mamaAlpha fastlimit slowlimit (period (-1) (some (lit 0)) (mamaPhase F arctan i1 (period 6 none q1)))).mulS (lit (1 / 2))) m with | .ok l => (_, none) | .error e => (_, some e)) = _
      rw [e2]
    | ok f =>
      rw [run_ok (s' := [h, h, sm, b1, b2, i1, (period 6 none q1), (period (-1) (some (lit 0)) (mamaPhase F arctan i1 (period 6 none q1))), (mamaAlpha fastlimit slowlimit (period (-1) (some (lit 0)) (mamaPhase F arctan i1 (period 6 none q1)))), m, f]) (by
        show (match ewmDyn { pval := 0, seed := .zero } ((mamaAlpha fastlimit slowlimit (period (-1) (some (lit 0)) (mamaPhase F arctan i1 (period 6 none q1)))).mulS (lit (1 / 2))) m with | .ok l => (_, none) | .error e => (_, some e)) = _
        rw [e2]; rfl)]
      rfl

theorem mamaRest_val4 (F : HtFns V) (arctan : V → V) (fastlimit slowlimit : V) (x y h sm b1 b2 i1 q1 : Line V) :
    run valOps [x, y, x, y, h, sm, b1, b2, i1, q1] (mamaRest F arctan fastlimit slowlimit 4) =
    match ewmDyn { pval := 1, seed := .zero } (mamaAlpha fastlimit slowlimit (period (-1) (some (lit 0)) (mamaPhase F arctan i1 (period 6 none q1)))) h with
    | .error e => ([x, y, x, y, h, sm, b1, b2, i1, (period 6 none q1), (period (-1) (some (lit 0)) (mamaPhase F arctan i1 (period 6 none q1))), (mamaAlpha fastlimit slowlimit (period (-1) (some (lit 0)) (mamaPhase F arctan i1 (period 6 none q1))))], some e)
    | .ok m => match ewmDyn { pval := 0, seed := .zero } ((mamaAlpha fastlimit slowlimit (period (-1) (some (lit 0)) (mamaPhase F arctan i1 (period 6 none q1)))).mulS (lit (1 / 2))) m with
      | .error e => ([x, y, x, y, h, sm, b1, b2, i1, (period 6 none q1), (period (-1) (some (lit 0)) (mamaPhase F arctan i1 (period 6 none q1))), (mamaAlpha fastlimit slowlimit (period (-1) (some (lit 0)) (mamaPhase F arctan i1 (period 6 none q1)))), m], some e)
      | .ok f => ([x, y, x, y, h, sm, b1, b2, i1, (period 6 none q1), (period (-1) (some (lit 0)) (mamaPhase F arctan i1 (period 6 none q1))), (mamaAlpha fastlimit slowlimit (period (-1) (some (lit 0)) (mamaPhase F arctan i1 (period 6 none q1)))), period 20 (some nan) m, period 20 (some nan) f, period 20 (some nan) m, period 20 (some nan) f], none) := by
  unfold mamaRest
  simp only [Nat.reduceAdd]
  rw [run_ok (s' := [x, y, x, y, h, sm, b1, b2, i1, (period 6 none q1)]) rfl, run_ok (s' := [x, y, x, y, h, sm, b1, b2, i1, (period 6 none q1), mamaPhase F arctan i1 (period 6 none q1)]) rfl,
    run_ok (s' := [x, y, x, y, h, sm, b1, b2, i1, (period 6 none q1), (period (-1) (some (lit 0)) (mamaPhase F arctan i1 (period 6 none q1)))]) rfl, run_ok (s' := [x, y, x, y, h, sm, b1, b2, i1, (period 6 none q1), (period (-1) (some (lit 0)) (mamaPhase F arctan i1 (period 6 none q1))), (mamaAlpha fastlimit slowlimit (period (-1) (some (lit 0)) (mamaPhase F arctan i1 (period 6 none q1))))]) rfl]
  cases e1 : ewmDyn { pval := 1, seed := .zero } (mamaAlpha fastlimit slowlimit (period (-1) (some (lit 0)) (mamaPhase F arctan i1 (period 6 none q1)))) h with
  | error e =>
    refine run_err ?_ _
    show (match ewmDyn { pval := 1, seed := .zero } (mamaAlpha fastlimit slowlimit (period (-1) (some (lit 0)) (mamaPhase F arctan i1 (period 6 none q1)))) h with | .ok l => (_, none) | .error e => (_, some e)) = _
    rw [e1]
  | ok m =>
    rw [run_ok (s' := [x, y, x, y, h, sm, b1, b2, i1, (period 6 none q1), (period (-1) (some (lit 0)) (mamaPhase F arctan i1 (period 6 none q1))), (mamaAlpha fastlimit slowlimit (period (-1) (some (lit 0)) (mamaPhase F arctan i1 (period 6 none q1)))), m]) (by
      show (match ewmDyn { pval := 1, seed := .zero } (mamaAlpha fastlimit slowlimit (period (-1) (some (lit 0)) (mamaPhase F arctan i1 (period 6 none q1)))) h with | .ok l => (_, none) | .error e => (_, some e)) = _
      rw [e1]; rfl)]
    simp only []
    cases e2 : ewmDyn { pval := 0, seed := .zero } ((mamaAlpha fastlimit slowlimit (period (-1) (some (lit 0)) (mamaPhase F arctan i1 (period 6 none q1)))).mulS (lit (1 / 2))) m with
    | error e =>
      refine run_err ?_ _
      show (match ewmDyn { pval := 0, seed := .zero } ((mamaAlpha fastlimit slowlimit (period (-1) (some (lit 0)) (mamaPhase F arctan i1 (period 6 none q1)))).mulS (lit (1 / 2))) m with | .ok l => (_, none) | .error e => (_, some e)) = _
      rw [e2]
    | ok f =>
      rw [run_ok (s' := [x, y, x, y, h, sm, b1, b2, i1, (period 6 none q1), (period (-1) (some (lit 0)) (mamaPhase F arctan i1 (period 6 none q1))), (mamaAlpha fastlimit slowlimit (period (-1) (some (lit 0)) (mamaPhase F arctan i1 (period 6 none q1)))), m, f]) (by
        show (match ewmDyn { pval := 0, seed := .zero } ((mamaAlpha fastlimit slowlimit (period (-1) (some (lit 0)) (mamaPhase F arctan i1 (period 6 none q1)))).mulS (lit (1 / 2))) m with | .ok l => (_, none) | .error e => (_, some e)) = _
        rw [e2]; rfl)]
      rfl

theorem mama_eq (F : HtFns V) (arctan : V → V) (fastlimit slowlimit : V) (p0 i1 q1 al : Line V)
    (hi : i1 = apply (fun price =>
      Ind.htBuf 6 price.length (Ind.htStep F (Ind.htZero 6 price)) (fun s => Ind.htAt s.i1 6) Ind.HtSt.init) nan (Ind.htSmooth p0))
    (hq : q1 = apply (fun price =>
      Ind.htBuf 6 price.length (Ind.htStep F (Ind.htZero 6 price)) (fun s => Ind.htAt s.q1 6) Ind.HtSt.init) nan (Ind.htSmooth p0))
    (ha : al = mamaAlpha fastlimit slowlimit (period (-1) (some (lit 0)) (mamaPhase F arctan i1 (period 6 none q1)))) :
    Ind.mama F arctan fastlimit slowlimit p0 =
    match ewmDyn { pval := 1, seed := .zero } al p0 with
    | .error e => .error e
    | .ok m => match ewmDyn { pval := 0, seed := .zero } (al.mulS (lit (1 / 2))) m with
      | .error e => .error e
      | .ok f => .ok (period 20 (some nan) m, period 20 (some nan) f) := by
  subst hi hq ha
  unfold Ind.mama mamaAlpha mamaPhase
  simp only [bind, Except.bind, pure, Except.pure]
  generalize Line.clipLoS _ slowlimit = al
  cases ewmDyn { pval := 1, seed := .zero } al p0 with
  | error e => rfl
  | ok m =>
    simp only []
    cases ewmDyn { pval := 0, seed := .zero } (al.mulS (lit (1 / 2))) m <;> rfl

section HtVal
variable {σ : Type} (m : Mem V) (hm : Spec.Sound m) (two : Bool) (h2 : m.env.length = given two)
  (start : ℕ) (inc : Int) (s0 : σ) (name name' : String)
include hm h2

theorem ht1_gives (stepf : List V → ℕ → σ → σ) (out : σ → V) :
    Spec.Gives m (htProg1 two start stepf out s0 inc name) (htP0 two + 4)
      (.ok (period inc (some nan) (apply (fun price =>
        Ind.htBuf start price.length (stepf (Ind.htZero start price)) out s0) nan (Ind.htSmooth (price0 two m))))) := by
  cases two with
  | false =>
    refine gives m hm _ (st := [.caller, .caller, .own, .own, .shared, .shared]) _ _ (by rw [h2]; rfl) ?_
    rw [one_env h2]
    unfold price0
    simp only [Bool.false_eq_true, if_false]
    generalize m.get 0 = h
    have hs : step valOps [h, h, Ind.htSmooth h, fillWith (lit 0) (Ind.htSmooth h)] (.apply true (htOut1 start stepf out s0) 2 [3] [true] 1) =
        ([h, h, Ind.htSmooth h, ⟨patch (fillWith (lit 0) (Ind.htSmooth h)).series ((Ind.htSmooth h).minperiod - 1)
          (Ind.htBuf start (pyFrom (Ind.htSmooth h).series ((Ind.htSmooth h).minperiod - 1)).length (stepf (Ind.htZero start (pyFrom (Ind.htSmooth h).series ((Ind.htSmooth h).minperiod - 1)))) out s0), (Ind.htSmooth h).minperiod⟩, clone (Ind.htSmooth h) (setFrom (Ind.htSmooth h).series.length nan ((Ind.htSmooth h).minperiod - 1)
          (Ind.htBuf start (pyFrom (Ind.htSmooth h).series ((Ind.htSmooth h).minperiod - 1)).length (stepf (Ind.htZero start (pyFrom (Ind.htSmooth h).series ((Ind.htSmooth h).minperiod - 1)))) out s0)) (Ind.htSmooth h).minperiod], none) := by
      have hg : ([3] : List ℕ).map (valOps.get [h, h, Ind.htSmooth h, fillWith (lit 0) (Ind.htSmooth h)]) = [fillWith (lit 0) (Ind.htSmooth h)] := rfl
      have hg2 : valOps.get [h, h, Ind.htSmooth h, fillWith (lit 0) (Ind.htSmooth h)] 2 = (Ind.htSmooth h) := rfl
      unfold Heap.step
      simp only [hg, hg2, applyMp1, List.map_cons, List.map_nil, htOut1, htOut2, htOut3, buf_eq]
      rfl
    have hrun : run valOps [h] (htProg1 false start stepf out s0 inc name) = run valOps
        [h, h, Ind.htSmooth h, ⟨patch (fillWith (lit 0) (Ind.htSmooth h)).series ((Ind.htSmooth h).minperiod - 1)
          (Ind.htBuf start (pyFrom (Ind.htSmooth h).series ((Ind.htSmooth h).minperiod - 1)).length (stepf (Ind.htZero start (pyFrom (Ind.htSmooth h).series ((Ind.htSmooth h).minperiod - 1)))) out s0), (Ind.htSmooth h).minperiod⟩, clone (Ind.htSmooth h) (setFrom (Ind.htSmooth h).series.length nan ((Ind.htSmooth h).minperiod - 1)
          (Ind.htBuf start (pyFrom (Ind.htSmooth h).series ((Ind.htSmooth h).minperiod - 1)).length (stepf (Ind.htZero start (pyFrom (Ind.htSmooth h).series ((Ind.htSmooth h).minperiod - 1)))) out s0)) (Ind.htSmooth h).minperiod] [.period 4 inc (some nan), .wrap 4 name] := by
      unfold htProg1 htHead htP0
      simp only [Bool.false_eq_true, if_false, List.cons_append, List.nil_append, Nat.reduceAdd]
      rw [run_ok (s' := [h, h]) rfl,
        run_ok (s' := [h, h, htPre h]) rfl, run_ok (s' := [h, h, Ind.htSmooth h]) rfl,
        run_ok (s' := [h, h, Ind.htSmooth h, fillWith (lit 0) (Ind.htSmooth h)]) rfl, run_ok hs]
    rw [hrun]
    exact ⟨rfl, rfl⟩
  | true =>
    refine gives m hm _ (st := [.caller, .caller, .caller, .caller, .own, .own, .own, .shared, .shared]) _ _ (by rw [h2]; rfl) ?_
    rw [two_env h2]
    unfold price0
    simp only [if_true]
    generalize m.get 0 = h
    generalize m.get 1 = l
    have hs : step valOps [h, l, h, l, Ind.htMid h l, Ind.htSmooth (Ind.htMid h l), fillWith (lit 0) (Ind.htSmooth (Ind.htMid h l))] (.apply true (htOut1 start stepf out s0) 5 [6] [true] 1) =
        ([h, l, h, l, Ind.htMid h l, Ind.htSmooth (Ind.htMid h l), ⟨patch (fillWith (lit 0) (Ind.htSmooth (Ind.htMid h l))).series ((Ind.htSmooth (Ind.htMid h l)).minperiod - 1)
          (Ind.htBuf start (pyFrom (Ind.htSmooth (Ind.htMid h l)).series ((Ind.htSmooth (Ind.htMid h l)).minperiod - 1)).length (stepf (Ind.htZero start (pyFrom (Ind.htSmooth (Ind.htMid h l)).series ((Ind.htSmooth (Ind.htMid h l)).minperiod - 1)))) out s0), (Ind.htSmooth (Ind.htMid h l)).minperiod⟩, clone (Ind.htSmooth (Ind.htMid h l)) (setFrom (Ind.htSmooth (Ind.htMid h l)).series.length nan ((Ind.htSmooth (Ind.htMid h l)).minperiod - 1)
          (Ind.htBuf start (pyFrom (Ind.htSmooth (Ind.htMid h l)).series ((Ind.htSmooth (Ind.htMid h l)).minperiod - 1)).length (stepf (Ind.htZero start (pyFrom (Ind.htSmooth (Ind.htMid h l)).series ((Ind.htSmooth (Ind.htMid h l)).minperiod - 1)))) out s0)) (Ind.htSmooth (Ind.htMid h l)).minperiod], none) := by
      have hg : ([6] : List ℕ).map (valOps.get [h, l, h, l, Ind.htMid h l, Ind.htSmooth (Ind.htMid h l), fillWith (lit 0) (Ind.htSmooth (Ind.htMid h l))]) = [fillWith (lit 0) (Ind.htSmooth (Ind.htMid h l))] := rfl
      have hg2 : valOps.get [h, l, h, l, Ind.htMid h l, Ind.htSmooth (Ind.htMid h l), fillWith (lit 0) (Ind.htSmooth (Ind.htMid h l))] 5 = (Ind.htSmooth (Ind.htMid h l)) := rfl
      unfold Heap.step
      simp only [hg, hg2, applyMp1, List.map_cons, List.map_nil, htOut1, htOut2, htOut3, buf_eq]
      rfl
    have hrun : run valOps [h, l] (htProg1 true start stepf out s0 inc name) = run valOps
        [h, l, h, l, Ind.htMid h l, Ind.htSmooth (Ind.htMid h l), ⟨patch (fillWith (lit 0) (Ind.htSmooth (Ind.htMid h l))).series ((Ind.htSmooth (Ind.htMid h l)).minperiod - 1)
          (Ind.htBuf start (pyFrom (Ind.htSmooth (Ind.htMid h l)).series ((Ind.htSmooth (Ind.htMid h l)).minperiod - 1)).length (stepf (Ind.htZero start (pyFrom (Ind.htSmooth (Ind.htMid h l)).series ((Ind.htSmooth (Ind.htMid h l)).minperiod - 1)))) out s0), (Ind.htSmooth (Ind.htMid h l)).minperiod⟩, clone (Ind.htSmooth (Ind.htMid h l)) (setFrom (Ind.htSmooth (Ind.htMid h l)).series.length nan ((Ind.htSmooth (Ind.htMid h l)).minperiod - 1)
          (Ind.htBuf start (pyFrom (Ind.htSmooth (Ind.htMid h l)).series ((Ind.htSmooth (Ind.htMid h l)).minperiod - 1)).length (stepf (Ind.htZero start (pyFrom (Ind.htSmooth (Ind.htMid h l)).series ((Ind.htSmooth (Ind.htMid h l)).minperiod - 1)))) out s0)) (Ind.htSmooth (Ind.htMid h l)).minperiod] [.period 7 inc (some nan), .wrap 7 name] := by
      unfold htProg1 htHead htP0
      simp only [if_true, List.cons_append, List.nil_append, Nat.reduceAdd]
      rw [run_ok (s' := [h, l, h]) rfl, run_ok (s' := [h, l, h, l]) rfl, run_ok (s' := [h, l, h, l, Ind.htMid h l]) rfl,
        run_ok (s' := [h, l, h, l, Ind.htMid h l, htPre (Ind.htMid h l)]) rfl, run_ok (s' := [h, l, h, l, Ind.htMid h l, Ind.htSmooth (Ind.htMid h l)]) rfl,
        run_ok (s' := [h, l, h, l, Ind.htMid h l, Ind.htSmooth (Ind.htMid h l), fillWith (lit 0) (Ind.htSmooth (Ind.htMid h l))]) rfl, run_ok hs]
    rw [hrun]
    exact ⟨rfl, rfl⟩

theorem ht2_gives (stepf : List V → ℕ → σ → σ) (out out' : σ → V) :
    Spec.Gives m (htProg2 two start stepf out out' s0 inc name name') (htP0 two + 6)
      (.ok (period inc (some nan) (apply (fun price =>
        Ind.htBuf start price.length (stepf (Ind.htZero start price)) out s0) nan (Ind.htSmooth (price0 two m))))) := by
  cases two with
  | false =>
    refine gives m hm _ (st := [.caller, .caller, .own, .own, .own, .shared, .shared, .shared, .shared]) _ _ (by rw [h2]; rfl) ?_
    rw [one_env h2]
    unfold price0
    simp only [Bool.false_eq_true, if_false]
    generalize m.get 0 = h
    have hs : step valOps [h, h, Ind.htSmooth h, fillWith (lit 0) (Ind.htSmooth h), fillWith (lit 0) (Ind.htSmooth h)] (.apply true (htOut2 start stepf out out' s0) 2 [3, 4] [true, true] 2) =
        ([h, h, Ind.htSmooth h, ⟨patch (fillWith (lit 0) (Ind.htSmooth h)).series ((Ind.htSmooth h).minperiod - 1)
          (Ind.htBuf start (pyFrom (Ind.htSmooth h).series ((Ind.htSmooth h).minperiod - 1)).length (stepf (Ind.htZero start (pyFrom (Ind.htSmooth h).series ((Ind.htSmooth h).minperiod - 1)))) out s0), (Ind.htSmooth h).minperiod⟩, ⟨patch (fillWith (lit 0) (Ind.htSmooth h)).series ((Ind.htSmooth h).minperiod - 1)
          (Ind.htBuf start (pyFrom (Ind.htSmooth h).series ((Ind.htSmooth h).minperiod - 1)).length (stepf (Ind.htZero start (pyFrom (Ind.htSmooth h).series ((Ind.htSmooth h).minperiod - 1)))) out' s0), (Ind.htSmooth h).minperiod⟩, clone (Ind.htSmooth h) (setFrom (Ind.htSmooth h).series.length nan ((Ind.htSmooth h).minperiod - 1)
          (Ind.htBuf start (pyFrom (Ind.htSmooth h).series ((Ind.htSmooth h).minperiod - 1)).length (stepf (Ind.htZero start (pyFrom (Ind.htSmooth h).series ((Ind.htSmooth h).minperiod - 1)))) out s0)) (Ind.htSmooth h).minperiod, clone (Ind.htSmooth h) (setFrom (Ind.htSmooth h).series.length nan ((Ind.htSmooth h).minperiod - 1)
          (Ind.htBuf start (pyFrom (Ind.htSmooth h).series ((Ind.htSmooth h).minperiod - 1)).length (stepf (Ind.htZero start (pyFrom (Ind.htSmooth h).series ((Ind.htSmooth h).minperiod - 1)))) out' s0)) (Ind.htSmooth h).minperiod], none) := by
      have hg : ([3, 4] : List ℕ).map (valOps.get [h, h, Ind.htSmooth h, fillWith (lit 0) (Ind.htSmooth h), fillWith (lit 0) (Ind.htSmooth h)]) = [fillWith (lit 0) (Ind.htSmooth h), fillWith (lit 0) (Ind.htSmooth h)] := rfl
      have hg2 : valOps.get [h, h, Ind.htSmooth h, fillWith (lit 0) (Ind.htSmooth h), fillWith (lit 0) (Ind.htSmooth h)] 2 = (Ind.htSmooth h) := rfl
      unfold Heap.step
      simp only [hg, hg2, applyMp11, List.map_cons, List.map_nil, htOut1, htOut2, htOut3, buf_eq]
      rfl
    have hrun : run valOps [h] (htProg2 false start stepf out out' s0 inc name name') = run valOps
        [h, h, Ind.htSmooth h, ⟨patch (fillWith (lit 0) (Ind.htSmooth h)).series ((Ind.htSmooth h).minperiod - 1)
          (Ind.htBuf start (pyFrom (Ind.htSmooth h).series ((Ind.htSmooth h).minperiod - 1)).length (stepf (Ind.htZero start (pyFrom (Ind.htSmooth h).series ((Ind.htSmooth h).minperiod - 1)))) out s0), (Ind.htSmooth h).minperiod⟩, ⟨patch (fillWith (lit 0) (Ind.htSmooth h)).series ((Ind.htSmooth h).minperiod - 1)
          (Ind.htBuf start (pyFrom (Ind.htSmooth h).series ((Ind.htSmooth h).minperiod - 1)).length (stepf (Ind.htZero start (pyFrom (Ind.htSmooth h).series ((Ind.htSmooth h).minperiod - 1)))) out' s0), (Ind.htSmooth h).minperiod⟩, clone (Ind.htSmooth h) (setFrom (Ind.htSmooth h).series.length nan ((Ind.htSmooth h).minperiod - 1)
          (Ind.htBuf start (pyFrom (Ind.htSmooth h).series ((Ind.htSmooth h).minperiod - 1)).length (stepf (Ind.htZero start (pyFrom (Ind.htSmooth h).series ((Ind.htSmooth h).minperiod - 1)))) out s0)) (Ind.htSmooth h).minperiod, clone (Ind.htSmooth h) (setFrom (Ind.htSmooth h).series.length nan ((Ind.htSmooth h).minperiod - 1)
          (Ind.htBuf start (pyFrom (Ind.htSmooth h).series ((Ind.htSmooth h).minperiod - 1)).length (stepf (Ind.htZero start (pyFrom (Ind.htSmooth h).series ((Ind.htSmooth h).minperiod - 1)))) out' s0)) (Ind.htSmooth h).minperiod] [.period 5 inc (some nan), .wrap 5 name, .period 6 inc (some nan), .wrap 6 name'] := by
      unfold htProg2 htHead htP0
      simp only [Bool.false_eq_true, if_false, List.cons_append, List.nil_append, Nat.reduceAdd]
      rw [run_ok (s' := [h, h]) rfl,
        run_ok (s' := [h, h, htPre h]) rfl, run_ok (s' := [h, h, Ind.htSmooth h]) rfl,
        run_ok (s' := [h, h, Ind.htSmooth h, fillWith (lit 0) (Ind.htSmooth h)]) rfl, run_ok (s' := [h, h, Ind.htSmooth h, fillWith (lit 0) (Ind.htSmooth h), fillWith (lit 0) (Ind.htSmooth h)]) rfl, run_ok hs]
    rw [hrun]
    exact ⟨rfl, rfl⟩
  | true =>
    refine gives m hm _ (st := [.caller, .caller, .caller, .caller, .own, .own, .own, .own, .shared, .shared, .shared, .shared]) _ _ (by rw [h2]; rfl) ?_
    rw [two_env h2]
    unfold price0
    simp only [if_true]
    generalize m.get 0 = h
    generalize m.get 1 = l
    have hs : step valOps [h, l, h, l, Ind.htMid h l, Ind.htSmooth (Ind.htMid h l), fillWith (lit 0) (Ind.htSmooth (Ind.htMid h l)), fillWith (lit 0) (Ind.htSmooth (Ind.htMid h l))] (.apply true (htOut2 start stepf out out' s0) 5 [6, 7] [true, true] 2) =
        ([h, l, h, l, Ind.htMid h l, Ind.htSmooth (Ind.htMid h l), ⟨patch (fillWith (lit 0) (Ind.htSmooth (Ind.htMid h l))).series ((Ind.htSmooth (Ind.htMid h l)).minperiod - 1)
          (Ind.htBuf start (pyFrom (Ind.htSmooth (Ind.htMid h l)).series ((Ind.htSmooth (Ind.htMid h l)).minperiod - 1)).length (stepf (Ind.htZero start (pyFrom (Ind.htSmooth (Ind.htMid h l)).series ((Ind.htSmooth (Ind.htMid h l)).minperiod - 1)))) out s0), (Ind.htSmooth (Ind.htMid h l)).minperiod⟩, ⟨patch (fillWith (lit 0) (Ind.htSmooth (Ind.htMid h l))).series ((Ind.htSmooth (Ind.htMid h l)).minperiod - 1)
          (Ind.htBuf start (pyFrom (Ind.htSmooth (Ind.htMid h l)).series ((Ind.htSmooth (Ind.htMid h l)).minperiod - 1)).length (stepf (Ind.htZero start (pyFrom (Ind.htSmooth (Ind.htMid h l)).series ((Ind.htSmooth (Ind.htMid h l)).minperiod - 1)))) out' s0), (Ind.htSmooth (Ind.htMid h l)).minperiod⟩, clone (Ind.htSmooth (Ind.htMid h l)) (setFrom (Ind.htSmooth (Ind.htMid h l)).series.length nan ((Ind.htSmooth (Ind.htMid h l)).minperiod - 1)
          (Ind.htBuf start (pyFrom (Ind.htSmooth (Ind.htMid h l)).series ((Ind.htSmooth (Ind.htMid h l)).minperiod - 1)).length (stepf (Ind.htZero start (pyFrom (Ind.htSmooth (Ind.htMid h l)).series ((Ind.htSmooth (Ind.htMid h l)).minperiod - 1)))) out s0)) (Ind.htSmooth (Ind.htMid h l)).minperiod, clone (Ind.htSmooth (Ind.htMid h l)) (setFrom (Ind.htSmooth (Ind.htMid h l)).series.length nan ((Ind.htSmooth (Ind.htMid h l)).minperiod - 1)
          (Ind.htBuf start (pyFrom (Ind.htSmooth (Ind.htMid h l)).series ((Ind.htSmooth (Ind.htMid h l)).minperiod - 1)).length (stepf (Ind.htZero start (pyFrom (Ind.htSmooth (Ind.htMid h l)).series ((Ind.htSmooth (Ind.htMid h l)).minperiod - 1)))) out' s0)) (Ind.htSmooth (Ind.htMid h l)).minperiod], none) := by
      have hg : ([6, 7] : List ℕ).map (valOps.get [h, l, h, l, Ind.htMid h l, Ind.htSmooth (Ind.htMid h l), fillWith (lit 0) (Ind.htSmooth (Ind.htMid h l)), fillWith (lit 0) (Ind.htSmooth (Ind.htMid h l))]) = [fillWith (lit 0) (Ind.htSmooth (Ind.htMid h l)), fillWith (lit 0) (Ind.htSmooth (Ind.htMid h l))] := rfl
      have hg2 : valOps.get [h, l, h, l, Ind.htMid h l, Ind.htSmooth (Ind.htMid h l), fillWith (lit 0) (Ind.htSmooth (Ind.htMid h l)), fillWith (lit 0) (Ind.htSmooth (Ind.htMid h l))] 5 = (Ind.htSmooth (Ind.htMid h l)) := rfl
      unfold Heap.step
      simp only [hg, hg2, applyMp11, List.map_cons, List.map_nil, htOut1, htOut2, htOut3, buf_eq]
      rfl
    have hrun : run valOps [h, l] (htProg2 true start stepf out out' s0 inc name name') = run valOps
        [h, l, h, l, Ind.htMid h l, Ind.htSmooth (Ind.htMid h l), ⟨patch (fillWith (lit 0) (Ind.htSmooth (Ind.htMid h l))).series ((Ind.htSmooth (Ind.htMid h l)).minperiod - 1)
          (Ind.htBuf start (pyFrom (Ind.htSmooth (Ind.htMid h l)).series ((Ind.htSmooth (Ind.htMid h l)).minperiod - 1)).length (stepf (Ind.htZero start (pyFrom (Ind.htSmooth (Ind.htMid h l)).series ((Ind.htSmooth (Ind.htMid h l)).minperiod - 1)))) out s0), (Ind.htSmooth (Ind.htMid h l)).minperiod⟩, ⟨patch (fillWith (lit 0) (Ind.htSmooth (Ind.htMid h l))).series ((Ind.htSmooth (Ind.htMid h l)).minperiod - 1)
          (Ind.htBuf start (pyFrom (Ind.htSmooth (Ind.htMid h l)).series ((Ind.htSmooth (Ind.htMid h l)).minperiod - 1)).length (stepf (Ind.htZero start (pyFrom (Ind.htSmooth (Ind.htMid h l)).series ((Ind.htSmooth (Ind.htMid h l)).minperiod - 1)))) out' s0), (Ind.htSmooth (Ind.htMid h l)).minperiod⟩, clone (Ind.htSmooth (Ind.htMid h l)) (setFrom (Ind.htSmooth (Ind.htMid h l)).series.length nan ((Ind.htSmooth (Ind.htMid h l)).minperiod - 1)
          (Ind.htBuf start (pyFrom (Ind.htSmooth (Ind.htMid h l)).series ((Ind.htSmooth (Ind.htMid h l)).minperiod - 1)).length (stepf (Ind.htZero start (pyFrom (Ind.htSmooth (Ind.htMid h l)).series ((Ind.htSmooth (Ind.htMid h l)).minperiod - 1)))) out s0)) (Ind.htSmooth (Ind.htMid h l)).minperiod, clone (Ind.htSmooth (Ind.htMid h l)) (setFrom (Ind.htSmooth (Ind.htMid h l)).series.length nan ((Ind.htSmooth (Ind.htMid h l)).minperiod - 1)
          (Ind.htBuf start (pyFrom (Ind.htSmooth (Ind.htMid h l)).series ((Ind.htSmooth (Ind.htMid h l)).minperiod - 1)).length (stepf (Ind.htZero start (pyFrom (Ind.htSmooth (Ind.htMid h l)).series ((Ind.htSmooth (Ind.htMid h l)).minperiod - 1)))) out' s0)) (Ind.htSmooth (Ind.htMid h l)).minperiod] [.period 8 inc (some nan), .wrap 8 name, .period 9 inc (some nan), .wrap 9 name'] := by
      unfold htProg2 htHead htP0
      simp only [if_true, List.cons_append, List.nil_append, Nat.reduceAdd]
      rw [run_ok (s' := [h, l, h]) rfl, run_ok (s' := [h, l, h, l]) rfl, run_ok (s' := [h, l, h, l, Ind.htMid h l]) rfl,
        run_ok (s' := [h, l, h, l, Ind.htMid h l, htPre (Ind.htMid h l)]) rfl, run_ok (s' := [h, l, h, l, Ind.htMid h l, Ind.htSmooth (Ind.htMid h l)]) rfl,
        run_ok (s' := [h, l, h, l, Ind.htMid h l, Ind.htSmooth (Ind.htMid h l), fillWith (lit 0) (Ind.htSmooth (Ind.htMid h l))]) rfl, run_ok (s' := [h, l, h, l, Ind.htMid h l, Ind.htSmooth (Ind.htMid h l), fillWith (lit 0) (Ind.htSmooth (Ind.htMid h l)), fillWith (lit 0) (Ind.htSmooth (Ind.htMid h l))]) rfl, run_ok hs]
    rw [hrun]
    exact ⟨rfl, rfl⟩

theorem ht2_gives' (stepf : List V → ℕ → σ → σ) (out out' : σ → V) :
    Spec.Gives m (htProg2 two start stepf out out' s0 inc name name') (htP0 two + 7)
      (.ok (period inc (some nan) (apply (fun price =>
        Ind.htBuf start price.length (stepf (Ind.htZero start price)) out' s0) nan (Ind.htSmooth (price0 two m))))) := by
  cases two with
  | false =>
    refine gives m hm _ (st := [.caller, .caller, .own, .own, .own, .shared, .shared, .shared, .shared]) _ _ (by rw [h2]; rfl) ?_
    rw [one_env h2]
    unfold price0
    simp only [Bool.false_eq_true, if_false]
    generalize m.get 0 = h
    have hs : step valOps [h, h, Ind.htSmooth h, fillWith (lit 0) (Ind.htSmooth h), fillWith (lit 0) (Ind.htSmooth h)] (.apply true (htOut2 start stepf out out' s0) 2 [3, 4] [true, true] 2) =
        ([h, h, Ind.htSmooth h, ⟨patch (fillWith (lit 0) (Ind.htSmooth h)).series ((Ind.htSmooth h).minperiod - 1)
          (Ind.htBuf start (pyFrom (Ind.htSmooth h).series ((Ind.htSmooth h).minperiod - 1)).length (stepf (Ind.htZero start (pyFrom (Ind.htSmooth h).series ((Ind.htSmooth h).minperiod - 1)))) out s0), (Ind.htSmooth h).minperiod⟩, ⟨patch (fillWith (lit 0) (Ind.htSmooth h)).series ((Ind.htSmooth h).minperiod - 1)
          (Ind.htBuf start (pyFrom (Ind.htSmooth h).series ((Ind.htSmooth h).minperiod - 1)).length (stepf (Ind.htZero start (pyFrom (Ind.htSmooth h).series ((Ind.htSmooth h).minperiod - 1)))) out' s0), (Ind.htSmooth h).minperiod⟩, clone (Ind.htSmooth h) (setFrom (Ind.htSmooth h).series.length nan ((Ind.htSmooth h).minperiod - 1)
          (Ind.htBuf start (pyFrom (Ind.htSmooth h).series ((Ind.htSmooth h).minperiod - 1)).length (stepf (Ind.htZero start (pyFrom (Ind.htSmooth h).series ((Ind.htSmooth h).minperiod - 1)))) out s0)) (Ind.htSmooth h).minperiod, clone (Ind.htSmooth h) (setFrom (Ind.htSmooth h).series.length nan ((Ind.htSmooth h).minperiod - 1)
          (Ind.htBuf start (pyFrom (Ind.htSmooth h).series ((Ind.htSmooth h).minperiod - 1)).length (stepf (Ind.htZero start (pyFrom (Ind.htSmooth h).series ((Ind.htSmooth h).minperiod - 1)))) out' s0)) (Ind.htSmooth h).minperiod], none) := by
      have hg : ([3, 4] : List ℕ).map (valOps.get [h, h, Ind.htSmooth h, fillWith (lit 0) (Ind.htSmooth h), fillWith (lit 0) (Ind.htSmooth h)]) = [fillWith (lit 0) (Ind.htSmooth h), fillWith (lit 0) (Ind.htSmooth h)] := rfl
      have hg2 : valOps.get [h, h, Ind.htSmooth h, fillWith (lit 0) (Ind.htSmooth h), fillWith (lit 0) (Ind.htSmooth h)] 2 = (Ind.htSmooth h) := rfl
      unfold Heap.step
      simp only [hg, hg2, applyMp11, List.map_cons, List.map_nil, htOut1, htOut2, htOut3, buf_eq]
      rfl
    have hrun : run valOps [h] (htProg2 false start stepf out out' s0 inc name name') = run valOps
        [h, h, Ind.htSmooth h, ⟨patch (fillWith (lit 0) (Ind.htSmooth h)).series ((Ind.htSmooth h).minperiod - 1)
          (Ind.htBuf start (pyFrom (Ind.htSmooth h).series ((Ind.htSmooth h).minperiod - 1)).length (stepf (Ind.htZero start (pyFrom (Ind.htSmooth h).series ((Ind.htSmooth h).minperiod - 1)))) out s0), (Ind.htSmooth h).minperiod⟩, ⟨patch (fillWith (lit 0) (Ind.htSmooth h)).series ((Ind.htSmooth h).minperiod - 1)
          (Ind.htBuf start (pyFrom (Ind.htSmooth h).series ((Ind.htSmooth h).minperiod - 1)).length (stepf (Ind.htZero start (pyFrom (Ind.htSmooth h).series ((Ind.htSmooth h).minperiod - 1)))) out' s0), (Ind.htSmooth h).minperiod⟩, clone (Ind.htSmooth h) (setFrom (Ind.htSmooth h).series.length nan ((Ind.htSmooth h).minperiod - 1)
          (Ind.htBuf start (pyFrom (Ind.htSmooth h).series ((Ind.htSmooth h).minperiod - 1)).length (stepf (Ind.htZero start (pyFrom (Ind.htSmooth h).series ((Ind.htSmooth h).minperiod - 1)))) out s0)) (Ind.htSmooth h).minperiod, clone (Ind.htSmooth h) (setFrom (Ind.htSmooth h).series.length nan ((Ind.htSmooth h).minperiod - 1)
          (Ind.htBuf start (pyFrom (Ind.htSmooth h).series ((Ind.htSmooth h).minperiod - 1)).length (stepf (Ind.htZero start (pyFrom (Ind.htSmooth h).series ((Ind.htSmooth h).minperiod - 1)))) out' s0)) (Ind.htSmooth h).minperiod] [.period 5 inc (some nan), .wrap 5 name, .period 6 inc (some nan), .wrap 6 name'] := by
      unfold htProg2 htHead htP0
      simp only [Bool.false_eq_true, if_false, List.cons_append, List.nil_append, Nat.reduceAdd]
      rw [run_ok (s' := [h, h]) rfl,
        run_ok (s' := [h, h, htPre h]) rfl, run_ok (s' := [h, h, Ind.htSmooth h]) rfl,
        run_ok (s' := [h, h, Ind.htSmooth h, fillWith (lit 0) (Ind.htSmooth h)]) rfl, run_ok (s' := [h, h, Ind.htSmooth h, fillWith (lit 0) (Ind.htSmooth h), fillWith (lit 0) (Ind.htSmooth h)]) rfl, run_ok hs]
    rw [hrun]
    exact ⟨rfl, rfl⟩
  | true =>
    refine gives m hm _ (st := [.caller, .caller, .caller, .caller, .own, .own, .own, .own, .shared, .shared, .shared, .shared]) _ _ (by rw [h2]; rfl) ?_
    rw [two_env h2]
    unfold price0
    simp only [if_true]
    generalize m.get 0 = h
    generalize m.get 1 = l
    have hs : step valOps [h, l, h, l, Ind.htMid h l, Ind.htSmooth (Ind.htMid h l), fillWith (lit 0) (Ind.htSmooth (Ind.htMid h l)), fillWith (lit 0) (Ind.htSmooth (Ind.htMid h l))] (.apply true (htOut2 start stepf out out' s0) 5 [6, 7] [true, true] 2) =
        ([h, l, h, l, Ind.htMid h l, Ind.htSmooth (Ind.htMid h l), ⟨patch (fillWith (lit 0) (Ind.htSmooth (Ind.htMid h l))).series ((Ind.htSmooth (Ind.htMid h l)).minperiod - 1)
          (Ind.htBuf start (pyFrom (Ind.htSmooth (Ind.htMid h l)).series ((Ind.htSmooth (Ind.htMid h l)).minperiod - 1)).length (stepf (Ind.htZero start (pyFrom (Ind.htSmooth (Ind.htMid h l)).series ((Ind.htSmooth (Ind.htMid h l)).minperiod - 1)))) out s0), (Ind.htSmooth (Ind.htMid h l)).minperiod⟩, ⟨patch (fillWith (lit 0) (Ind.htSmooth (Ind.htMid h l))).series ((Ind.htSmooth (Ind.htMid h l)).minperiod - 1)
          (Ind.htBuf start (pyFrom (Ind.htSmooth (Ind.htMid h l)).series ((Ind.htSmooth (Ind.htMid h l)).minperiod - 1)).length (stepf (Ind.htZero start (pyFrom (Ind.htSmooth (Ind.htMid h l)).series ((Ind.htSmooth (Ind.htMid h l)).minperiod - 1)))) out' s0), (Ind.htSmooth (Ind.htMid h l)).minperiod⟩, clone (Ind.htSmooth (Ind.htMid h l)) (setFrom (Ind.htSmooth (Ind.htMid h l)).series.length nan ((Ind.htSmooth (Ind.htMid h l)).minperiod - 1)
          (Ind.htBuf start (pyFrom (Ind.htSmooth (Ind.htMid h l)).series ((Ind.htSmooth (Ind.htMid h l)).minperiod - 1)).length (stepf (Ind.htZero start (pyFrom (Ind.htSmooth (Ind.htMid h l)).series ((Ind.htSmooth (Ind.htMid h l)).minperiod - 1)))) out s0)) (Ind.htSmooth (Ind.htMid h l)).minperiod, clone (Ind.htSmooth (Ind.htMid h l)) (setFrom (Ind.htSmooth (Ind.htMid h l)).series.length nan ((Ind.htSmooth (Ind.htMid h l)).minperiod - 1)
          (Ind.htBuf start (pyFrom (Ind.htSmooth (Ind.htMid h l)).series ((Ind.htSmooth (Ind.htMid h l)).minperiod - 1)).length (stepf (Ind.htZero start (pyFrom (Ind.htSmooth (Ind.htMid h l)).series ((Ind.htSmooth (Ind.htMid h l)).minperiod - 1)))) out' s0)) (Ind.htSmooth (Ind.htMid h l)).minperiod], none) := by
      have hg : ([6, 7] : List ℕ).map (valOps.get [h, l, h, l, Ind.htMid h l, Ind.htSmooth (Ind.htMid h l), fillWith (lit 0) (Ind.htSmooth (Ind.htMid h l)), fillWith (lit 0) (Ind.htSmooth (Ind.htMid h l))]) = [fillWith (lit 0) (Ind.htSmooth (Ind.htMid h l)), fillWith (lit 0) (Ind.htSmooth (Ind.htMid h l))] := rfl
      have hg2 : valOps.get [h, l, h, l, Ind.htMid h l, Ind.htSmooth (Ind.htMid h l), fillWith (lit 0) (Ind.htSmooth (Ind.htMid h l)), fillWith (lit 0) (Ind.htSmooth (Ind.htMid h l))] 5 = (Ind.htSmooth (Ind.htMid h l)) := rfl
      unfold Heap.step
      simp only [hg, hg2, applyMp11, List.map_cons, List.map_nil, htOut1, htOut2, htOut3, buf_eq]
      rfl
    have hrun : run valOps [h, l] (htProg2 true start stepf out out' s0 inc name name') = run valOps
        [h, l, h, l, Ind.htMid h l, Ind.htSmooth (Ind.htMid h l), ⟨patch (fillWith (lit 0) (Ind.htSmooth (Ind.htMid h l))).series ((Ind.htSmooth (Ind.htMid h l)).minperiod - 1)
          (Ind.htBuf start (pyFrom (Ind.htSmooth (Ind.htMid h l)).series ((Ind.htSmooth (Ind.htMid h l)).minperiod - 1)).length (stepf (Ind.htZero start (pyFrom (Ind.htSmooth (Ind.htMid h l)).series ((Ind.htSmooth (Ind.htMid h l)).minperiod - 1)))) out s0), (Ind.htSmooth (Ind.htMid h l)).minperiod⟩, ⟨patch (fillWith (lit 0) (Ind.htSmooth (Ind.htMid h l))).series ((Ind.htSmooth (Ind.htMid h l)).minperiod - 1)
          (Ind.htBuf start (pyFrom (Ind.htSmooth (Ind.htMid h l)).series ((Ind.htSmooth (Ind.htMid h l)).minperiod - 1)).length (stepf (Ind.htZero start (pyFrom (Ind.htSmooth (Ind.htMid h l)).series ((Ind.htSmooth (Ind.htMid h l)).minperiod - 1)))) out' s0), (Ind.htSmooth (Ind.htMid h l)).minperiod⟩, clone (Ind.htSmooth (Ind.htMid h l)) (setFrom (Ind.htSmooth (Ind.htMid h l)).series.length nan ((Ind.htSmooth (Ind.htMid h l)).minperiod - 1)
          (Ind.htBuf start (pyFrom (Ind.htSmooth (Ind.htMid h l)).series ((Ind.htSmooth (Ind.htMid h l)).minperiod - 1)).length (stepf (Ind.htZero start (pyFrom (Ind.htSmooth (Ind.htMid h l)).series ((Ind.htSmooth (Ind.htMid h l)).minperiod - 1)))) out s0)) (Ind.htSmooth (Ind.htMid h l)).minperiod, clone (Ind.htSmooth (Ind.htMid h l)) (setFrom (Ind.htSmooth (Ind.htMid h l)).series.length nan ((Ind.htSmooth (Ind.htMid h l)).minperiod - 1)
          (Ind.htBuf start (pyFrom (Ind.htSmooth (Ind.htMid h l)).series ((Ind.htSmooth (Ind.htMid h l)).minperiod - 1)).length (stepf (Ind.htZero start (pyFrom (Ind.htSmooth (Ind.htMid h l)).series ((Ind.htSmooth (Ind.htMid h l)).minperiod - 1)))) out' s0)) (Ind.htSmooth (Ind.htMid h l)).minperiod] [.period 8 inc (some nan), .wrap 8 name, .period 9 inc (some nan), .wrap 9 name'] := by
      unfold htProg2 htHead htP0
      simp only [if_true, List.cons_append, List.nil_append, Nat.reduceAdd]
      rw [run_ok (s' := [h, l, h]) rfl, run_ok (s' := [h, l, h, l]) rfl, run_ok (s' := [h, l, h, l, Ind.htMid h l]) rfl,
        run_ok (s' := [h, l, h, l, Ind.htMid h l, htPre (Ind.htMid h l)]) rfl, run_ok (s' := [h, l, h, l, Ind.htMid h l, Ind.htSmooth (Ind.htMid h l)]) rfl,
        run_ok (s' := [h, l, h, l, Ind.htMid h l, Ind.htSmooth (Ind.htMid h l), fillWith (lit 0) (Ind.htSmooth (Ind.htMid h l))]) rfl, run_ok (s' := [h, l, h, l, Ind.htMid h l, Ind.htSmooth (Ind.htMid h l), fillWith (lit 0) (Ind.htSmooth (Ind.htMid h l)), fillWith (lit 0) (Ind.htSmooth (Ind.htMid h l))]) rfl, run_ok hs]
    rw [hrun]
    exact ⟨rfl, rfl⟩

theorem ht3_gives_raw (stepf : List V → List V → ℕ → σ → σ) (out : σ → V) :
    Spec.Gives m (htProg3 true two start stepf out s0 inc name) (htP0 two + 4)
      (.ok (period inc (some nan) (apply2 (fun price price0 =>
        Ind.htBuf start price.length (stepf (Ind.htZero start price) price0) out s0) nan (Ind.htSmooth (price0 two m)) (price0 two m)))) := by
  cases two with
  | false =>
    refine gives m hm _ (st := [.caller, .caller, .own, .own, .shared, .shared]) _ _ (by rw [h2]; rfl) ?_
    rw [one_env h2]
    unfold price0
    simp only [Bool.false_eq_true, if_false]
    generalize m.get 0 = h
    have hs : step valOps [h, h, Ind.htSmooth h, fillWith (lit 0) (Ind.htSmooth h)] (.apply true (htOut3 start stepf out s0) 2 [1, 3] [false, true] 1) =
        ([h, h, Ind.htSmooth h, ⟨patch (fillWith (lit 0) (Ind.htSmooth h)).series ((max (Ind.htSmooth h).minperiod h.minperiod) - 1)
          (Ind.htBuf start (pyFrom (Ind.htSmooth h).series ((max (Ind.htSmooth h).minperiod h.minperiod) - 1)).length (stepf (Ind.htZero start (pyFrom (Ind.htSmooth h).series ((max (Ind.htSmooth h).minperiod h.minperiod) - 1))) (pyFrom h.series ((max (Ind.htSmooth h).minperiod h.minperiod) - 1))) out s0), (Ind.htSmooth h).minperiod⟩, clone (Ind.htSmooth h) (setFrom (Ind.htSmooth h).series.length nan ((max (Ind.htSmooth h).minperiod h.minperiod) - 1)
          (Ind.htBuf start (pyFrom (Ind.htSmooth h).series ((max (Ind.htSmooth h).minperiod h.minperiod) - 1)).length (stepf (Ind.htZero start (pyFrom (Ind.htSmooth h).series ((max (Ind.htSmooth h).minperiod h.minperiod) - 1))) (pyFrom h.series ((max (Ind.htSmooth h).minperiod h.minperiod) - 1))) out s0)) (max (Ind.htSmooth h).minperiod h.minperiod)], none) := by
      have hg : ([1, 3] : List ℕ).map (valOps.get [h, h, Ind.htSmooth h, fillWith (lit 0) (Ind.htSmooth h)]) = [h, fillWith (lit 0) (Ind.htSmooth h)] := rfl
      have hg2 : valOps.get [h, h, Ind.htSmooth h, fillWith (lit 0) (Ind.htSmooth h)] 2 = (Ind.htSmooth h) := rfl
      unfold Heap.step
      simp only [hg, hg2, applyMp2, List.map_cons, List.map_nil, htOut1, htOut2, htOut3, buf_eq]
      rfl
    have hrun : run valOps [h] (htProg3 true false start stepf out s0 inc name) = run valOps
        [h, h, Ind.htSmooth h, ⟨patch (fillWith (lit 0) (Ind.htSmooth h)).series ((max (Ind.htSmooth h).minperiod h.minperiod) - 1)
          (Ind.htBuf start (pyFrom (Ind.htSmooth h).series ((max (Ind.htSmooth h).minperiod h.minperiod) - 1)).length (stepf (Ind.htZero start (pyFrom (Ind.htSmooth h).series ((max (Ind.htSmooth h).minperiod h.minperiod) - 1))) (pyFrom h.series ((max (Ind.htSmooth h).minperiod h.minperiod) - 1))) out s0), (Ind.htSmooth h).minperiod⟩, clone (Ind.htSmooth h) (setFrom (Ind.htSmooth h).series.length nan ((max (Ind.htSmooth h).minperiod h.minperiod) - 1)
          (Ind.htBuf start (pyFrom (Ind.htSmooth h).series ((max (Ind.htSmooth h).minperiod h.minperiod) - 1)).length (stepf (Ind.htZero start (pyFrom (Ind.htSmooth h).series ((max (Ind.htSmooth h).minperiod h.minperiod) - 1))) (pyFrom h.series ((max (Ind.htSmooth h).minperiod h.minperiod) - 1))) out s0)) (max (Ind.htSmooth h).minperiod h.minperiod)] [.period 4 inc (some nan), .wrap 4 name] := by
      unfold htProg3 htHead htP0
      simp only [Bool.false_eq_true, if_false, List.cons_append, List.nil_append, Nat.reduceAdd]
      rw [run_ok (s' := [h, h]) rfl,
        run_ok (s' := [h, h, htPre h]) rfl, run_ok (s' := [h, h, Ind.htSmooth h]) rfl,
        run_ok (s' := [h, h, Ind.htSmooth h, fillWith (lit 0) (Ind.htSmooth h)]) rfl, run_ok hs]
    rw [hrun]
    exact ⟨rfl, rfl⟩
  | true =>
    refine gives m hm _ (st := [.caller, .caller, .caller, .caller, .own, .own, .own, .shared, .shared]) _ _ (by rw [h2]; rfl) ?_
    rw [two_env h2]
    unfold price0
    simp only [if_true]
    generalize m.get 0 = h
    generalize m.get 1 = l
    have hs : step valOps [h, l, h, l, Ind.htMid h l, Ind.htSmooth (Ind.htMid h l), fillWith (lit 0) (Ind.htSmooth (Ind.htMid h l))] (.apply true (htOut3 start stepf out s0) 5 [4, 6] [false, true] 1) =
        ([h, l, h, l, Ind.htMid h l, Ind.htSmooth (Ind.htMid h l), ⟨patch (fillWith (lit 0) (Ind.htSmooth (Ind.htMid h l))).series ((max (Ind.htSmooth (Ind.htMid h l)).minperiod (Ind.htMid h l).minperiod) - 1)
          (Ind.htBuf start (pyFrom (Ind.htSmooth (Ind.htMid h l)).series ((max (Ind.htSmooth (Ind.htMid h l)).minperiod (Ind.htMid h l).minperiod) - 1)).length (stepf (Ind.htZero start (pyFrom (Ind.htSmooth (Ind.htMid h l)).series ((max (Ind.htSmooth (Ind.htMid h l)).minperiod (Ind.htMid h l).minperiod) - 1))) (pyFrom (Ind.htMid h l).series ((max (Ind.htSmooth (Ind.htMid h l)).minperiod (Ind.htMid h l).minperiod) - 1))) out s0), (Ind.htSmooth (Ind.htMid h l)).minperiod⟩, clone (Ind.htSmooth (Ind.htMid h l)) (setFrom (Ind.htSmooth (Ind.htMid h l)).series.length nan ((max (Ind.htSmooth (Ind.htMid h l)).minperiod (Ind.htMid h l).minperiod) - 1)
          (Ind.htBuf start (pyFrom (Ind.htSmooth (Ind.htMid h l)).series ((max (Ind.htSmooth (Ind.htMid h l)).minperiod (Ind.htMid h l).minperiod) - 1)).length (stepf (Ind.htZero start (pyFrom (Ind.htSmooth (Ind.htMid h l)).series ((max (Ind.htSmooth (Ind.htMid h l)).minperiod (Ind.htMid h l).minperiod) - 1))) (pyFrom (Ind.htMid h l).series ((max (Ind.htSmooth (Ind.htMid h l)).minperiod (Ind.htMid h l).minperiod) - 1))) out s0)) (max (Ind.htSmooth (Ind.htMid h l)).minperiod (Ind.htMid h l).minperiod)], none) := by
      have hg : ([4, 6] : List ℕ).map (valOps.get [h, l, h, l, Ind.htMid h l, Ind.htSmooth (Ind.htMid h l), fillWith (lit 0) (Ind.htSmooth (Ind.htMid h l))]) = [(Ind.htMid h l), fillWith (lit 0) (Ind.htSmooth (Ind.htMid h l))] := rfl
      have hg2 : valOps.get [h, l, h, l, Ind.htMid h l, Ind.htSmooth (Ind.htMid h l), fillWith (lit 0) (Ind.htSmooth (Ind.htMid h l))] 5 = (Ind.htSmooth (Ind.htMid h l)) := rfl
      unfold Heap.step
      simp only [hg, hg2, applyMp2, List.map_cons, List.map_nil, htOut1, htOut2, htOut3, buf_eq]
      rfl
    have hrun : run valOps [h, l] (htProg3 true true start stepf out s0 inc name) = run valOps
        [h, l, h, l, Ind.htMid h l, Ind.htSmooth (Ind.htMid h l), ⟨patch (fillWith (lit 0) (Ind.htSmooth (Ind.htMid h l))).series ((max (Ind.htSmooth (Ind.htMid h l)).minperiod (Ind.htMid h l).minperiod) - 1)
          (Ind.htBuf start (pyFrom (Ind.htSmooth (Ind.htMid h l)).series ((max (Ind.htSmooth (Ind.htMid h l)).minperiod (Ind.htMid h l).minperiod) - 1)).length (stepf (Ind.htZero start (pyFrom (Ind.htSmooth (Ind.htMid h l)).series ((max (Ind.htSmooth (Ind.htMid h l)).minperiod (Ind.htMid h l).minperiod) - 1))) (pyFrom (Ind.htMid h l).series ((max (Ind.htSmooth (Ind.htMid h l)).minperiod (Ind.htMid h l).minperiod) - 1))) out s0), (Ind.htSmooth (Ind.htMid h l)).minperiod⟩, clone (Ind.htSmooth (Ind.htMid h l)) (setFrom (Ind.htSmooth (Ind.htMid h l)).series.length nan ((max (Ind.htSmooth (Ind.htMid h l)).minperiod (Ind.htMid h l).minperiod) - 1)
          (Ind.htBuf start (pyFrom (Ind.htSmooth (Ind.htMid h l)).series ((max (Ind.htSmooth (Ind.htMid h l)).minperiod (Ind.htMid h l).minperiod) - 1)).length (stepf (Ind.htZero start (pyFrom (Ind.htSmooth (Ind.htMid h l)).series ((max (Ind.htSmooth (Ind.htMid h l)).minperiod (Ind.htMid h l).minperiod) - 1))) (pyFrom (Ind.htMid h l).series ((max (Ind.htSmooth (Ind.htMid h l)).minperiod (Ind.htMid h l).minperiod) - 1))) out s0)) (max (Ind.htSmooth (Ind.htMid h l)).minperiod (Ind.htMid h l).minperiod)] [.period 7 inc (some nan), .wrap 7 name] := by
      unfold htProg3 htHead htP0
      simp only [if_true, List.cons_append, List.nil_append, Nat.reduceAdd]
      rw [run_ok (s' := [h, l, h]) rfl, run_ok (s' := [h, l, h, l]) rfl, run_ok (s' := [h, l, h, l, Ind.htMid h l]) rfl,
        run_ok (s' := [h, l, h, l, Ind.htMid h l, htPre (Ind.htMid h l)]) rfl, run_ok (s' := [h, l, h, l, Ind.htMid h l, Ind.htSmooth (Ind.htMid h l)]) rfl,
        run_ok (s' := [h, l, h, l, Ind.htMid h l, Ind.htSmooth (Ind.htMid h l), fillWith (lit 0) (Ind.htSmooth (Ind.htMid h l))]) rfl, run_ok hs]
    rw [hrun]
    exact ⟨rfl, rfl⟩

theorem ht3_gives_view (stepf : List V → List V → ℕ → σ → σ) (out : σ → V) :
    Spec.Gives m (htProg3 false two start stepf out s0 inc name) (htP0 two + 4)
      (.ok (period inc (some nan) (apply2 (fun price price0 =>
        Ind.htBuf start price.length (stepf (Ind.htZero start price) price0) out s0) nan (Ind.htSmooth (price0 two m)) (price0 two m)))) := by
  cases two with
  | false =>
    refine gives m hm _ (st := [.caller, .caller, .own, .own, .shared, .shared]) _ _ (by rw [h2]; rfl) ?_
    rw [one_env h2]
    unfold price0
    simp only [Bool.false_eq_true, if_false]
    generalize m.get 0 = h
    have hs : step valOps [h, h, Ind.htSmooth h, fillWith (lit 0) (Ind.htSmooth h)] (.apply false (htOut3 start stepf out s0) 2 [1, 3] [false, true] 1) =
        ([h, h, ⟨patch (Ind.htSmooth h).series ((max (Ind.htSmooth h).minperiod h.minperiod) - 1) (Ind.htZero start (pyFrom (Ind.htSmooth h).series ((max (Ind.htSmooth h).minperiod h.minperiod) - 1))), (Ind.htSmooth h).minperiod⟩, ⟨patch (fillWith (lit 0) (Ind.htSmooth h)).series ((max (Ind.htSmooth h).minperiod h.minperiod) - 1)
          (Ind.htBuf start (pyFrom (Ind.htSmooth h).series ((max (Ind.htSmooth h).minperiod h.minperiod) - 1)).length (stepf (Ind.htZero start (pyFrom (Ind.htSmooth h).series ((max (Ind.htSmooth h).minperiod h.minperiod) - 1))) (pyFrom h.series ((max (Ind.htSmooth h).minperiod h.minperiod) - 1))) out s0), (Ind.htSmooth h).minperiod⟩, clone (Ind.htSmooth h) (setFrom (Ind.htSmooth h).series.length nan ((max (Ind.htSmooth h).minperiod h.minperiod) - 1)
          (Ind.htBuf start (pyFrom (Ind.htSmooth h).series ((max (Ind.htSmooth h).minperiod h.minperiod) - 1)).length (stepf (Ind.htZero start (pyFrom (Ind.htSmooth h).series ((max (Ind.htSmooth h).minperiod h.minperiod) - 1))) (pyFrom h.series ((max (Ind.htSmooth h).minperiod h.minperiod) - 1))) out s0)) (max (Ind.htSmooth h).minperiod h.minperiod)], none) := by
      have hg : ([1, 3] : List ℕ).map (valOps.get [h, h, Ind.htSmooth h, fillWith (lit 0) (Ind.htSmooth h)]) = [h, fillWith (lit 0) (Ind.htSmooth h)] := rfl
      have hg2 : valOps.get [h, h, Ind.htSmooth h, fillWith (lit 0) (Ind.htSmooth h)] 2 = (Ind.htSmooth h) := rfl
      unfold Heap.step
      simp only [hg, hg2, applyMp2, List.map_cons, List.map_nil, htOut1, htOut2, htOut3, buf_eq]
      rfl
    have hrun : run valOps [h] (htProg3 false false start stepf out s0 inc name) = run valOps
        [h, h, ⟨patch (Ind.htSmooth h).series ((max (Ind.htSmooth h).minperiod h.minperiod) - 1) (Ind.htZero start (pyFrom (Ind.htSmooth h).series ((max (Ind.htSmooth h).minperiod h.minperiod) - 1))), (Ind.htSmooth h).minperiod⟩, ⟨patch (fillWith (lit 0) (Ind.htSmooth h)).series ((max (Ind.htSmooth h).minperiod h.minperiod) - 1)
          (Ind.htBuf start (pyFrom (Ind.htSmooth h).series ((max (Ind.htSmooth h).minperiod h.minperiod) - 1)).length (stepf (Ind.htZero start (pyFrom (Ind.htSmooth h).series ((max (Ind.htSmooth h).minperiod h.minperiod) - 1))) (pyFrom h.series ((max (Ind.htSmooth h).minperiod h.minperiod) - 1))) out s0), (Ind.htSmooth h).minperiod⟩, clone (Ind.htSmooth h) (setFrom (Ind.htSmooth h).series.length nan ((max (Ind.htSmooth h).minperiod h.minperiod) - 1)
          (Ind.htBuf start (pyFrom (Ind.htSmooth h).series ((max (Ind.htSmooth h).minperiod h.minperiod) - 1)).length (stepf (Ind.htZero start (pyFrom (Ind.htSmooth h).series ((max (Ind.htSmooth h).minperiod h.minperiod) - 1))) (pyFrom h.series ((max (Ind.htSmooth h).minperiod h.minperiod) - 1))) out s0)) (max (Ind.htSmooth h).minperiod h.minperiod)] [.period 4 inc (some nan), .wrap 4 name] := by
      unfold htProg3 htHead htP0
      simp only [Bool.false_eq_true, if_false, List.cons_append, List.nil_append, Nat.reduceAdd]
      rw [run_ok (s' := [h, h]) rfl,
        run_ok (s' := [h, h, htPre h]) rfl, run_ok (s' := [h, h, Ind.htSmooth h]) rfl,
        run_ok (s' := [h, h, Ind.htSmooth h, fillWith (lit 0) (Ind.htSmooth h)]) rfl, run_ok hs]
    rw [hrun]
    exact ⟨rfl, rfl⟩
  | true =>
    refine gives m hm _ (st := [.caller, .caller, .caller, .caller, .own, .own, .own, .shared, .shared]) _ _ (by rw [h2]; rfl) ?_
    rw [two_env h2]
    unfold price0
    simp only [if_true]
    generalize m.get 0 = h
    generalize m.get 1 = l
    have hs : step valOps [h, l, h, l, Ind.htMid h l, Ind.htSmooth (Ind.htMid h l), fillWith (lit 0) (Ind.htSmooth (Ind.htMid h l))] (.apply false (htOut3 start stepf out s0) 5 [4, 6] [false, true] 1) =
        ([h, l, h, l, Ind.htMid h l, ⟨patch (Ind.htSmooth (Ind.htMid h l)).series ((max (Ind.htSmooth (Ind.htMid h l)).minperiod (Ind.htMid h l).minperiod) - 1) (Ind.htZero start (pyFrom (Ind.htSmooth (Ind.htMid h l)).series ((max (Ind.htSmooth (Ind.htMid h l)).minperiod (Ind.htMid h l).minperiod) - 1))), (Ind.htSmooth (Ind.htMid h l)).minperiod⟩, ⟨patch (fillWith (lit 0) (Ind.htSmooth (Ind.htMid h l))).series ((max (Ind.htSmooth (Ind.htMid h l)).minperiod (Ind.htMid h l).minperiod) - 1)
          (Ind.htBuf start (pyFrom (Ind.htSmooth (Ind.htMid h l)).series ((max (Ind.htSmooth (Ind.htMid h l)).minperiod (Ind.htMid h l).minperiod) - 1)).length (stepf (Ind.htZero start (pyFrom (Ind.htSmooth (Ind.htMid h l)).series ((max (Ind.htSmooth (Ind.htMid h l)).minperiod (Ind.htMid h l).minperiod) - 1))) (pyFrom (Ind.htMid h l).series ((max (Ind.htSmooth (Ind.htMid h l)).minperiod (Ind.htMid h l).minperiod) - 1))) out s0), (Ind.htSmooth (Ind.htMid h l)).minperiod⟩, clone (Ind.htSmooth (Ind.htMid h l)) (setFrom (Ind.htSmooth (Ind.htMid h l)).series.length nan ((max (Ind.htSmooth (Ind.htMid h l)).minperiod (Ind.htMid h l).minperiod) - 1)
          (Ind.htBuf start (pyFrom (Ind.htSmooth (Ind.htMid h l)).series ((max (Ind.htSmooth (Ind.htMid h l)).minperiod (Ind.htMid h l).minperiod) - 1)).length (stepf (Ind.htZero start (pyFrom (Ind.htSmooth (Ind.htMid h l)).series ((max (Ind.htSmooth (Ind.htMid h l)).minperiod (Ind.htMid h l).minperiod) - 1))) (pyFrom (Ind.htMid h l).series ((max (Ind.htSmooth (Ind.htMid h l)).minperiod (Ind.htMid h l).minperiod) - 1))) out s0)) (max (Ind.htSmooth (Ind.htMid h l)).minperiod (Ind.htMid h l).minperiod)], none) := by
      have hg : ([4, 6] : List ℕ).map (valOps.get [h, l, h, l, Ind.htMid h l, Ind.htSmooth (Ind.htMid h l), fillWith (lit 0) (Ind.htSmooth (Ind.htMid h l))]) = [(Ind.htMid h l), fillWith (lit 0) (Ind.htSmooth (Ind.htMid h l))] := rfl
      have hg2 : valOps.get [h, l, h, l, Ind.htMid h l, Ind.htSmooth (Ind.htMid h l), fillWith (lit 0) (Ind.htSmooth (Ind.htMid h l))] 5 = (Ind.htSmooth (Ind.htMid h l)) := rfl
      unfold Heap.step
      simp only [hg, hg2, applyMp2, List.map_cons, List.map_nil, htOut1, htOut2, htOut3, buf_eq]
      rfl
    have hrun : run valOps [h, l] (htProg3 false true start stepf out s0 inc name) = run valOps
        [h, l, h, l, Ind.htMid h l, ⟨patch (Ind.htSmooth (Ind.htMid h l)).series ((max (Ind.htSmooth (Ind.htMid h l)).minperiod (Ind.htMid h l).minperiod) - 1) (Ind.htZero start (pyFrom (Ind.htSmooth (Ind.htMid h l)).series ((max (Ind.htSmooth (Ind.htMid h l)).minperiod (Ind.htMid h l).minperiod) - 1))), (Ind.htSmooth (Ind.htMid h l)).minperiod⟩, ⟨patch (fillWith (lit 0) (Ind.htSmooth (Ind.htMid h l))).series ((max (Ind.htSmooth (Ind.htMid h l)).minperiod (Ind.htMid h l).minperiod) - 1)
          (Ind.htBuf start (pyFrom (Ind.htSmooth (Ind.htMid h l)).series ((max (Ind.htSmooth (Ind.htMid h l)).minperiod (Ind.htMid h l).minperiod) - 1)).length (stepf (Ind.htZero start (pyFrom (Ind.htSmooth (Ind.htMid h l)).series ((max (Ind.htSmooth (Ind.htMid h l)).minperiod (Ind.htMid h l).minperiod) - 1))) (pyFrom (Ind.htMid h l).series ((max (Ind.htSmooth (Ind.htMid h l)).minperiod (Ind.htMid h l).minperiod) - 1))) out s0), (Ind.htSmooth (Ind.htMid h l)).minperiod⟩, clone (Ind.htSmooth (Ind.htMid h l)) (setFrom (Ind.htSmooth (Ind.htMid h l)).series.length nan ((max (Ind.htSmooth (Ind.htMid h l)).minperiod (Ind.htMid h l).minperiod) - 1)
          (Ind.htBuf start (pyFrom (Ind.htSmooth (Ind.htMid h l)).series ((max (Ind.htSmooth (Ind.htMid h l)).minperiod (Ind.htMid h l).minperiod) - 1)).length (stepf (Ind.htZero start (pyFrom (Ind.htSmooth (Ind.htMid h l)).series ((max (Ind.htSmooth (Ind.htMid h l)).minperiod (Ind.htMid h l).minperiod) - 1))) (pyFrom (Ind.htMid h l).series ((max (Ind.htSmooth (Ind.htMid h l)).minperiod (Ind.htMid h l).minperiod) - 1))) out s0)) (max (Ind.htSmooth (Ind.htMid h l)).minperiod (Ind.htMid h l).minperiod)] [.period 7 inc (some nan), .wrap 7 name] := by
      unfold htProg3 htHead htP0
      simp only [if_true, List.cons_append, List.nil_append, Nat.reduceAdd]
      rw [run_ok (s' := [h, l, h]) rfl, run_ok (s' := [h, l, h, l]) rfl, run_ok (s' := [h, l, h, l, Ind.htMid h l]) rfl,
        run_ok (s' := [h, l, h, l, Ind.htMid h l, htPre (Ind.htMid h l)]) rfl, run_ok (s' := [h, l, h, l, Ind.htMid h l, Ind.htSmooth (Ind.htMid h l)]) rfl,
        run_ok (s' := [h, l, h, l, Ind.htMid h l, Ind.htSmooth (Ind.htMid h l), fillWith (lit 0) (Ind.htSmooth (Ind.htMid h l))]) rfl, run_ok hs]
    rw [hrun]
    exact ⟨rfl, rfl⟩

theorem mama_gives (F : HtFns V) (arctan : V → V) (fastlimit slowlimit : V) :
    Spec.Gives m (mamaProg F arctan fastlimit slowlimit two) (htP0 two + 10)
      ((Ind.mama F arctan fastlimit slowlimit (price0 two m)).map Prod.fst) := by
  cases two with
  | false =>
    refine gives m hm _ (st := [.caller, .caller, .own, .own, .own, .own, .own, .own, .own, .shared, .shared, .shared, .shared]) _ _ (by rw [h2]; rfl) ?_
    rw [one_env h2]
    unfold price0
    simp only [Bool.false_eq_true, if_false]
    generalize m.get 0 = h
    have hs : step valOps [h, h, Ind.htSmooth h, fillWith (lit 0) (Ind.htSmooth h), fillWith (lit 0) (Ind.htSmooth h)] (.apply true (htOut2 6 (Ind.htStep F) (fun s => Ind.htAt s.i1 6) (fun s => Ind.htAt s.q1 6) Ind.HtSt.init) 2 [3, 4] [true, true] 2) =
        ([h, h, Ind.htSmooth h, ⟨patch (fillWith (lit 0) (Ind.htSmooth h)).series ((Ind.htSmooth h).minperiod - 1)
          (Ind.htBuf 6 (pyFrom (Ind.htSmooth h).series ((Ind.htSmooth h).minperiod - 1)).length (Ind.htStep F (Ind.htZero 6 (pyFrom (Ind.htSmooth h).series ((Ind.htSmooth h).minperiod - 1)))) (fun s => Ind.htAt s.i1 6) Ind.HtSt.init), (Ind.htSmooth h).minperiod⟩, ⟨patch (fillWith (lit 0) (Ind.htSmooth h)).series ((Ind.htSmooth h).minperiod - 1)
          (Ind.htBuf 6 (pyFrom (Ind.htSmooth h).series ((Ind.htSmooth h).minperiod - 1)).length (Ind.htStep F (Ind.htZero 6 (pyFrom (Ind.htSmooth h).series ((Ind.htSmooth h).minperiod - 1)))) (fun s => Ind.htAt s.q1 6) Ind.HtSt.init), (Ind.htSmooth h).minperiod⟩, clone (Ind.htSmooth h) (setFrom (Ind.htSmooth h).series.length nan ((Ind.htSmooth h).minperiod - 1)
          (Ind.htBuf 6 (pyFrom (Ind.htSmooth h).series ((Ind.htSmooth h).minperiod - 1)).length (Ind.htStep F (Ind.htZero 6 (pyFrom (Ind.htSmooth h).series ((Ind.htSmooth h).minperiod - 1)))) (fun s => Ind.htAt s.i1 6) Ind.HtSt.init)) (Ind.htSmooth h).minperiod, clone (Ind.htSmooth h) (setFrom (Ind.htSmooth h).series.length nan ((Ind.htSmooth h).minperiod - 1)
          (Ind.htBuf 6 (pyFrom (Ind.htSmooth h).series ((Ind.htSmooth h).minperiod - 1)).length (Ind.htStep F (Ind.htZero 6 (pyFrom (Ind.htSmooth h).series ((Ind.htSmooth h).minperiod - 1)))) (fun s => Ind.htAt s.q1 6) Ind.HtSt.init)) (Ind.htSmooth h).minperiod], none) := by
      have hg : ([3, 4] : List ℕ).map (valOps.get [h, h, Ind.htSmooth h, fillWith (lit 0) (Ind.htSmooth h), fillWith (lit 0) (Ind.htSmooth h)]) = [fillWith (lit 0) (Ind.htSmooth h), fillWith (lit 0) (Ind.htSmooth h)] := rfl
      have hg2 : valOps.get [h, h, Ind.htSmooth h, fillWith (lit 0) (Ind.htSmooth h), fillWith (lit 0) (Ind.htSmooth h)] 2 = (Ind.htSmooth h) := rfl
      unfold Heap.step
      simp only [hg, hg2, applyMp11, List.map_cons, List.map_nil, htOut1, htOut2, htOut3, buf_eq]
      rfl
    have hrun : run valOps [h] (mamaProg F arctan fastlimit slowlimit false) = run valOps
        [h, h, Ind.htSmooth h, ⟨patch (fillWith (lit 0) (Ind.htSmooth h)).series ((Ind.htSmooth h).minperiod - 1)
          (Ind.htBuf 6 (pyFrom (Ind.htSmooth h).series ((Ind.htSmooth h).minperiod - 1)).length (Ind.htStep F (Ind.htZero 6 (pyFrom (Ind.htSmooth h).series ((Ind.htSmooth h).minperiod - 1)))) (fun s => Ind.htAt s.i1 6) Ind.HtSt.init), (Ind.htSmooth h).minperiod⟩, ⟨patch (fillWith (lit 0) (Ind.htSmooth h)).series ((Ind.htSmooth h).minperiod - 1)
          (Ind.htBuf 6 (pyFrom (Ind.htSmooth h).series ((Ind.htSmooth h).minperiod - 1)).length (Ind.htStep F (Ind.htZero 6 (pyFrom (Ind.htSmooth h).series ((Ind.htSmooth h).minperiod - 1)))) (fun s => Ind.htAt s.q1 6) Ind.HtSt.init), (Ind.htSmooth h).minperiod⟩, clone (Ind.htSmooth h) (setFrom (Ind.htSmooth h).series.length nan ((Ind.htSmooth h).minperiod - 1)
          (Ind.htBuf 6 (pyFrom (Ind.htSmooth h).series ((Ind.htSmooth h).minperiod - 1)).length (Ind.htStep F (Ind.htZero 6 (pyFrom (Ind.htSmooth h).series ((Ind.htSmooth h).minperiod - 1)))) (fun s => Ind.htAt s.i1 6) Ind.HtSt.init)) (Ind.htSmooth h).minperiod, clone (Ind.htSmooth h) (setFrom (Ind.htSmooth h).series.length nan ((Ind.htSmooth h).minperiod - 1)
          (Ind.htBuf 6 (pyFrom (Ind.htSmooth h).series ((Ind.htSmooth h).minperiod - 1)).length (Ind.htStep F (Ind.htZero 6 (pyFrom (Ind.htSmooth h).series ((Ind.htSmooth h).minperiod - 1)))) (fun s => Ind.htAt s.q1 6) Ind.HtSt.init)) (Ind.htSmooth h).minperiod] (mamaRest F arctan fastlimit slowlimit 1) := by
      unfold mamaProg htHead htP0
      simp only [Bool.false_eq_true, if_false, List.cons_append, List.nil_append, Nat.reduceAdd]
      rw [run_ok (s' := [h, h]) rfl,
        run_ok (s' := [h, h, htPre h]) rfl, run_ok (s' := [h, h, Ind.htSmooth h]) rfl,
        run_ok (s' := [h, h, Ind.htSmooth h, fillWith (lit 0) (Ind.htSmooth h)]) rfl, run_ok (s' := [h, h, Ind.htSmooth h, fillWith (lit 0) (Ind.htSmooth h), fillWith (lit 0) (Ind.htSmooth h)]) rfl, run_ok hs]
    rw [hrun, mamaRest_val1 F arctan fastlimit slowlimit h, mama_eq F arctan fastlimit slowlimit h _ _ _ rfl rfl rfl]
    generalize hal : mamaAlpha fastlimit slowlimit _ = al
    have hal' := hal
    simp only [apply] at hal'
    generalize hal2 : mamaAlpha fastlimit slowlimit _ = al2
    obtain rfl : al2 = al := hal2.symm.trans hal
    cases ewmDyn { pval := 1, seed := .zero } al2 h with
    | error e => rfl
    | ok m =>
      simp only []
      cases ewmDyn { pval := 0, seed := .zero } (al2.mulS (lit (1 / 2))) m with
      | error e => rfl
      | ok f => exact ⟨rfl, rfl⟩
  | true =>
    refine gives m hm _ (st := [.caller, .caller, .caller, .caller, .own, .own, .own, .own, .own, .own, .own, .own, .shared, .shared, .shared, .shared]) _ _ (by rw [h2]; rfl) ?_
    rw [two_env h2]
    unfold price0
    simp only [if_true]
    generalize m.get 0 = h
    generalize m.get 1 = l
    have hs : step valOps [h, l, h, l, Ind.htMid h l, Ind.htSmooth (Ind.htMid h l), fillWith (lit 0) (Ind.htSmooth (Ind.htMid h l)), fillWith (lit 0) (Ind.htSmooth (Ind.htMid h l))] (.apply true (htOut2 6 (Ind.htStep F) (fun s => Ind.htAt s.i1 6) (fun s => Ind.htAt s.q1 6) Ind.HtSt.init) 5 [6, 7] [true, true] 2) =
        ([h, l, h, l, Ind.htMid h l, Ind.htSmooth (Ind.htMid h l), ⟨patch (fillWith (lit 0) (Ind.htSmooth (Ind.htMid h l))).series ((Ind.htSmooth (Ind.htMid h l)).minperiod - 1)
          (Ind.htBuf 6 (pyFrom (Ind.htSmooth (Ind.htMid h l)).series ((Ind.htSmooth (Ind.htMid h l)).minperiod - 1)).length (Ind.htStep F (Ind.htZero 6 (pyFrom (Ind.htSmooth (Ind.htMid h l)).series ((Ind.htSmooth (Ind.htMid h l)).minperiod - 1)))) (fun s => Ind.htAt s.i1 6) Ind.HtSt.init), (Ind.htSmooth (Ind.htMid h l)).minperiod⟩, ⟨patch (fillWith (lit 0) (Ind.htSmooth (Ind.htMid h l))).series ((Ind.htSmooth (Ind.htMid h l)).minperiod - 1)
          (Ind.htBuf 6 (pyFrom (Ind.htSmooth (Ind.htMid h l)).series ((Ind.htSmooth (Ind.htMid h l)).minperiod - 1)).length (Ind.htStep F (Ind.htZero 6 (pyFrom (Ind.htSmooth (Ind.htMid h l)).series ((Ind.htSmooth (Ind.htMid h l)).minperiod - 1)))) (fun s => Ind.htAt s.q1 6) Ind.HtSt.init), (Ind.htSmooth (Ind.htMid h l)).minperiod⟩, clone (Ind.htSmooth (Ind.htMid h l)) (setFrom (Ind.htSmooth (Ind.htMid h l)).series.length nan ((Ind.htSmooth (Ind.htMid h l)).minperiod - 1)
          (Ind.htBuf 6 (pyFrom (Ind.htSmooth (Ind.htMid h l)).series ((Ind.htSmooth (Ind.htMid h l)).minperiod - 1)).length (Ind.htStep F (Ind.htZero 6 (pyFrom (Ind.htSmooth (Ind.htMid h l)).series ((Ind.htSmooth (Ind.htMid h l)).minperiod - 1)))) (fun s => Ind.htAt s.i1 6) Ind.HtSt.init)) (Ind.htSmooth (Ind.htMid h l)).minperiod, clone (Ind.htSmooth (Ind.htMid h l)) (setFrom (Ind.htSmooth (Ind.htMid h l)).series.length nan ((Ind.htSmooth (Ind.htMid h l)).minperiod - 1)
          (Ind.htBuf 6 (pyFrom (Ind.htSmooth (Ind.htMid h l)).series ((Ind.htSmooth (Ind.htMid h l)).minperiod - 1)).length (Ind.htStep F (Ind.htZero 6 (pyFrom (Ind.htSmooth (Ind.htMid h l)).series ((Ind.htSmooth (Ind.htMid h l)).minperiod - 1)))) (fun s => Ind.htAt s.q1 6) Ind.HtSt.init)) (Ind.htSmooth (Ind.htMid h l)).minperiod], none) := by
      have hg : ([6, 7] : List ℕ).map (valOps.get [h, l, h, l, Ind.htMid h l, Ind.htSmooth (Ind.htMid h l), fillWith (lit 0) (Ind.htSmooth (Ind.htMid h l)), fillWith (lit 0) (Ind.htSmooth (Ind.htMid h l))]) = [fillWith (lit 0) (Ind.htSmooth (Ind.htMid h l)), fillWith (lit 0) (Ind.htSmooth (Ind.htMid h l))] := rfl
      have hg2 : valOps.get [h, l, h, l, Ind.htMid h l, Ind.htSmooth (Ind.htMid h l), fillWith (lit 0) (Ind.htSmooth (Ind.htMid h l)), fillWith (lit 0) (Ind.htSmooth (Ind.htMid h l))] 5 = (Ind.htSmooth (Ind.htMid h l)) := rfl
      unfold Heap.step
      simp only [hg, hg2, applyMp11, List.map_cons, List.map_nil, htOut1, htOut2, htOut3, buf_eq]
      rfl
    have hrun : run valOps [h, l] (mamaProg F arctan fastlimit slowlimit true) = run valOps
        [h, l, h, l, Ind.htMid h l, Ind.htSmooth (Ind.htMid h l), ⟨patch (fillWith (lit 0) (Ind.htSmooth (Ind.htMid h l))).series ((Ind.htSmooth (Ind.htMid h l)).minperiod - 1)
          (Ind.htBuf 6 (pyFrom (Ind.htSmooth (Ind.htMid h l)).series ((Ind.htSmooth (Ind.htMid h l)).minperiod - 1)).length (Ind.htStep F (Ind.htZero 6 (pyFrom (Ind.htSmooth (Ind.htMid h l)).series ((Ind.htSmooth (Ind.htMid h l)).minperiod - 1)))) (fun s => Ind.htAt s.i1 6) Ind.HtSt.init), (Ind.htSmooth (Ind.htMid h l)).minperiod⟩, ⟨patch (fillWith (lit 0) (Ind.htSmooth (Ind.htMid h l))).series ((Ind.htSmooth (Ind.htMid h l)).minperiod - 1)
          (Ind.htBuf 6 (pyFrom (Ind.htSmooth (Ind.htMid h l)).series ((Ind.htSmooth (Ind.htMid h l)).minperiod - 1)).length (Ind.htStep F (Ind.htZero 6 (pyFrom (Ind.htSmooth (Ind.htMid h l)).series ((Ind.htSmooth (Ind.htMid h l)).minperiod - 1)))) (fun s => Ind.htAt s.q1 6) Ind.HtSt.init), (Ind.htSmooth (Ind.htMid h l)).minperiod⟩, clone (Ind.htSmooth (Ind.htMid h l)) (setFrom (Ind.htSmooth (Ind.htMid h l)).series.length nan ((Ind.htSmooth (Ind.htMid h l)).minperiod - 1)
          (Ind.htBuf 6 (pyFrom (Ind.htSmooth (Ind.htMid h l)).series ((Ind.htSmooth (Ind.htMid h l)).minperiod - 1)).length (Ind.htStep F (Ind.htZero 6 (pyFrom (Ind.htSmooth (Ind.htMid h l)).series ((Ind.htSmooth (Ind.htMid h l)).minperiod - 1)))) (fun s => Ind.htAt s.i1 6) Ind.HtSt.init)) (Ind.htSmooth (Ind.htMid h l)).minperiod, clone (Ind.htSmooth (Ind.htMid h l)) (setFrom (Ind.htSmooth (Ind.htMid h l)).series.length nan ((Ind.htSmooth (Ind.htMid h l)).minperiod - 1)
          (Ind.htBuf 6 (pyFrom (Ind.htSmooth (Ind.htMid h l)).series ((Ind.htSmooth (Ind.htMid h l)).minperiod - 1)).length (Ind.htStep F (Ind.htZero 6 (pyFrom (Ind.htSmooth (Ind.htMid h l)).series ((Ind.htSmooth (Ind.htMid h l)).minperiod - 1)))) (fun s => Ind.htAt s.q1 6) Ind.HtSt.init)) (Ind.htSmooth (Ind.htMid h l)).minperiod] (mamaRest F arctan fastlimit slowlimit 4) := by
      unfold mamaProg htHead htP0
      simp only [if_true, List.cons_append, List.nil_append, Nat.reduceAdd]
      rw [run_ok (s' := [h, l, h]) rfl, run_ok (s' := [h, l, h, l]) rfl, run_ok (s' := [h, l, h, l, Ind.htMid h l]) rfl,
        run_ok (s' := [h, l, h, l, Ind.htMid h l, htPre (Ind.htMid h l)]) rfl, run_ok (s' := [h, l, h, l, Ind.htMid h l, Ind.htSmooth (Ind.htMid h l)]) rfl,
        run_ok (s' := [h, l, h, l, Ind.htMid h l, Ind.htSmooth (Ind.htMid h l), fillWith (lit 0) (Ind.htSmooth (Ind.htMid h l))]) rfl, run_ok (s' := [h, l, h, l, Ind.htMid h l, Ind.htSmooth (Ind.htMid h l), fillWith (lit 0) (Ind.htSmooth (Ind.htMid h l)), fillWith (lit 0) (Ind.htSmooth (Ind.htMid h l))]) rfl, run_ok hs]
    rw [hrun, mamaRest_val4 F arctan fastlimit slowlimit h l (Ind.htMid h l), mama_eq F arctan fastlimit slowlimit (Ind.htMid h l) _ _ _ rfl rfl rfl]
    generalize hal : mamaAlpha fastlimit slowlimit _ = al
    have hal' := hal
    simp only [apply] at hal'
    generalize hal2 : mamaAlpha fastlimit slowlimit _ = al2
    obtain rfl : al2 = al := hal2.symm.trans hal
    cases ewmDyn { pval := 1, seed := .zero } al2 (Ind.htMid h l) with
    | error e => rfl
    | ok m =>
      simp only []
      cases ewmDyn { pval := 0, seed := .zero } (al2.mulS (lit (1 / 2))) m with
      | error e => rfl
      | ok f => exact ⟨rfl, rfl⟩

theorem mama_gives' (F : HtFns V) (arctan : V → V) (fastlimit slowlimit : V) :
    Spec.Gives m (mamaProg F arctan fastlimit slowlimit two) (htP0 two + 11)
      ((Ind.mama F arctan fastlimit slowlimit (price0 two m)).map Prod.snd) := by
  cases two with
  | false =>
    refine gives m hm _ (st := [.caller, .caller, .own, .own, .own, .own, .own, .own, .own, .shared, .shared, .shared, .shared]) _ _ (by rw [h2]; rfl) ?_
    rw [one_env h2]
    unfold price0
    simp only [Bool.false_eq_true, if_false]
    generalize m.get 0 = h
    have hs : step valOps [h, h, Ind.htSmooth h, fillWith (lit 0) (Ind.htSmooth h), fillWith (lit 0) (Ind.htSmooth h)] (.apply true (htOut2 6 (Ind.htStep F) (fun s => Ind.htAt s.i1 6) (fun s => Ind.htAt s.q1 6) Ind.HtSt.init) 2 [3, 4] [true, true] 2) =
        ([h, h, Ind.htSmooth h, ⟨patch (fillWith (lit 0) (Ind.htSmooth h)).series ((Ind.htSmooth h).minperiod - 1)
          (Ind.htBuf 6 (pyFrom (Ind.htSmooth h).series ((Ind.htSmooth h).minperiod - 1)).length (Ind.htStep F (Ind.htZero 6 (pyFrom (Ind.htSmooth h).series ((Ind.htSmooth h).minperiod - 1)))) (fun s => Ind.htAt s.i1 6) Ind.HtSt.init), (Ind.htSmooth h).minperiod⟩, ⟨patch (fillWith (lit 0) (Ind.htSmooth h)).series ((Ind.htSmooth h).minperiod - 1)
          (Ind.htBuf 6 (pyFrom (Ind.htSmooth h).series ((Ind.htSmooth h).minperiod - 1)).length (Ind.htStep F (Ind.htZero 6 (pyFrom (Ind.htSmooth h).series ((Ind.htSmooth h).minperiod - 1)))) (fun s => Ind.htAt s.q1 6) Ind.HtSt.init), (Ind.htSmooth h).minperiod⟩, clone (Ind.htSmooth h) (setFrom (Ind.htSmooth h).series.length nan ((Ind.htSmooth h).minperiod - 1)
          (Ind.htBuf 6 (pyFrom (Ind.htSmooth h).series ((Ind.htSmooth h).minperiod - 1)).length (Ind.htStep F (Ind.htZero 6 (pyFrom (Ind.htSmooth h).series ((Ind.htSmooth h).minperiod - 1)))) (fun s => Ind.htAt s.i1 6) Ind.HtSt.init)) (Ind.htSmooth h).minperiod, clone (Ind.htSmooth h) (setFrom (Ind.htSmooth h).series.length nan ((Ind.htSmooth h).minperiod - 1)
          (Ind.htBuf 6 (pyFrom (Ind.htSmooth h).series ((Ind.htSmooth h).minperiod - 1)).length (Ind.htStep F (Ind.htZero 6 (pyFrom (Ind.htSmooth h).series ((Ind.htSmooth h).minperiod - 1)))) (fun s => Ind.htAt s.q1 6) Ind.HtSt.init)) (Ind.htSmooth h).minperiod], none) := by
      have hg : ([3, 4] : List ℕ).map (valOps.get [h, h, Ind.htSmooth h, fillWith (lit 0) (Ind.htSmooth h), fillWith (lit 0) (Ind.htSmooth h)]) = [fillWith (lit 0) (Ind.htSmooth h), fillWith (lit 0) (Ind.htSmooth h)] := rfl
      have hg2 : valOps.get [h, h, Ind.htSmooth h, fillWith (lit 0) (Ind.htSmooth h), fillWith (lit 0) (Ind.htSmooth h)] 2 = (Ind.htSmooth h) := rfl
      unfold Heap.step
      simp only [hg, hg2, applyMp11, List.map_cons, List.map_nil, htOut1, htOut2, htOut3, buf_eq]
      rfl
    have hrun : run valOps [h] (mamaProg F arctan fastlimit slowlimit false) = run valOps
        [h, h, Ind.htSmooth h, ⟨patch (fillWith (lit 0) (Ind.htSmooth h)).series ((Ind.htSmooth h).minperiod - 1)
          (Ind.htBuf 6 (pyFrom (Ind.htSmooth h).series ((Ind.htSmooth h).minperiod - 1)).length (Ind.htStep F (Ind.htZero 6 (pyFrom (Ind.htSmooth h).series ((Ind.htSmooth h).minperiod - 1)))) (fun s => Ind.htAt s.i1 6) Ind.HtSt.init), (Ind.htSmooth h).minperiod⟩, ⟨patch (fillWith (lit 0) (Ind.htSmooth h)).series ((Ind.htSmooth h).minperiod - 1)
          (Ind.htBuf 6 (pyFrom (Ind.htSmooth h).series ((Ind.htSmooth h).minperiod - 1)).length (Ind.htStep F (Ind.htZero 6 (pyFrom (Ind.htSmooth h).series ((Ind.htSmooth h).minperiod - 1)))) (fun s => Ind.htAt s.q1 6) Ind.HtSt.init), (Ind.htSmooth h).minperiod⟩, clone (Ind.htSmooth h) (setFrom (Ind.htSmooth h).series.length nan ((Ind.htSmooth h).minperiod - 1)
          (Ind.htBuf 6 (pyFrom (Ind.htSmooth h).series ((Ind.htSmooth h).minperiod - 1)).length (Ind.htStep F (Ind.htZero 6 (pyFrom (Ind.htSmooth h).series ((Ind.htSmooth h).minperiod - 1)))) (fun s => Ind.htAt s.i1 6) Ind.HtSt.init)) (Ind.htSmooth h).minperiod, clone (Ind.htSmooth h) (setFrom (Ind.htSmooth h).series.length nan ((Ind.htSmooth h).minperiod - 1)
          (Ind.htBuf 6 (pyFrom (Ind.htSmooth h).series ((Ind.htSmooth h).minperiod - 1)).length (Ind.htStep F (Ind.htZero 6 (pyFrom (Ind.htSmooth h).series ((Ind.htSmooth h).minperiod - 1)))) (fun s => Ind.htAt s.q1 6) Ind.HtSt.init)) (Ind.htSmooth h).minperiod] (mamaRest F arctan fastlimit slowlimit 1) := by
      unfold mamaProg htHead htP0
      simp only [Bool.false_eq_true, if_false, List.cons_append, List.nil_append, Nat.reduceAdd]
      rw [run_ok (s' := [h, h]) rfl,
        run_ok (s' := [h, h, htPre h]) rfl, run_ok (s' := [h, h, Ind.htSmooth h]) rfl,
        run_ok (s' := [h, h, Ind.htSmooth h, fillWith (lit 0) (Ind.htSmooth h)]) rfl, run_ok (s' := [h, h, Ind.htSmooth h, fillWith (lit 0) (Ind.htSmooth h), fillWith (lit 0) (Ind.htSmooth h)]) rfl, run_ok hs]
    rw [hrun, mamaRest_val1 F arctan fastlimit slowlimit h, mama_eq F arctan fastlimit slowlimit h _ _ _ rfl rfl rfl]
    generalize hal : mamaAlpha fastlimit slowlimit _ = al
    have hal' := hal
    simp only [apply] at hal'
    generalize hal2 : mamaAlpha fastlimit slowlimit _ = al2
    obtain rfl : al2 = al := hal2.symm.trans hal
    cases ewmDyn { pval := 1, seed := .zero } al2 h with
    | error e => rfl
    | ok m =>
      simp only []
      cases ewmDyn { pval := 0, seed := .zero } (al2.mulS (lit (1 / 2))) m with
      | error e => rfl
      | ok f => exact ⟨rfl, rfl⟩
  | true =>
    refine gives m hm _ (st := [.caller, .caller, .caller, .caller, .own, .own, .own, .own, .own, .own, .own, .own, .shared, .shared, .shared, .shared]) _ _ (by rw [h2]; rfl) ?_
    rw [two_env h2]
    unfold price0
    simp only [if_true]
    generalize m.get 0 = h
    generalize m.get 1 = l
    have hs : step valOps [h, l, h, l, Ind.htMid h l, Ind.htSmooth (Ind.htMid h l), fillWith (lit 0) (Ind.htSmooth (Ind.htMid h l)), fillWith (lit 0) (Ind.htSmooth (Ind.htMid h l))] (.apply true (htOut2 6 (Ind.htStep F) (fun s => Ind.htAt s.i1 6) (fun s => Ind.htAt s.q1 6) Ind.HtSt.init) 5 [6, 7] [true, true] 2) =
        ([h, l, h, l, Ind.htMid h l, Ind.htSmooth (Ind.htMid h l), ⟨patch (fillWith (lit 0) (Ind.htSmooth (Ind.htMid h l))).series ((Ind.htSmooth (Ind.htMid h l)).minperiod - 1)
          (Ind.htBuf 6 (pyFrom (Ind.htSmooth (Ind.htMid h l)).series ((Ind.htSmooth (Ind.htMid h l)).minperiod - 1)).length (Ind.htStep F (Ind.htZero 6 (pyFrom (Ind.htSmooth (Ind.htMid h l)).series ((Ind.htSmooth (Ind.htMid h l)).minperiod - 1)))) (fun s => Ind.htAt s.i1 6) Ind.HtSt.init), (Ind.htSmooth (Ind.htMid h l)).minperiod⟩, ⟨patch (fillWith (lit 0) (Ind.htSmooth (Ind.htMid h l))).series ((Ind.htSmooth (Ind.htMid h l)).minperiod - 1)
          (Ind.htBuf 6 (pyFrom (Ind.htSmooth (Ind.htMid h l)).series ((Ind.htSmooth (Ind.htMid h l)).minperiod - 1)).length (Ind.htStep F (Ind.htZero 6 (pyFrom (Ind.htSmooth (Ind.htMid h l)).series ((Ind.htSmooth (Ind.htMid h l)).minperiod - 1)))) (fun s => Ind.htAt s.q1 6) Ind.HtSt.init), (Ind.htSmooth (Ind.htMid h l)).minperiod⟩, clone (Ind.htSmooth (Ind.htMid h l)) (setFrom (Ind.htSmooth (Ind.htMid h l)).series.length nan ((Ind.htSmooth (Ind.htMid h l)).minperiod - 1)
          (Ind.htBuf 6 (pyFrom (Ind.htSmooth (Ind.htMid h l)).series ((Ind.htSmooth (Ind.htMid h l)).minperiod - 1)).length (Ind.htStep F (Ind.htZero 6 (pyFrom (Ind.htSmooth (Ind.htMid h l)).series ((Ind.htSmooth (Ind.htMid h l)).minperiod - 1)))) (fun s => Ind.htAt s.i1 6) Ind.HtSt.init)) (Ind.htSmooth (Ind.htMid h l)).minperiod, clone (Ind.htSmooth (Ind.htMid h l)) (setFrom (Ind.htSmooth (Ind.htMid h l)).series.length nan ((Ind.htSmooth (Ind.htMid h l)).minperiod - 1)
          (Ind.htBuf 6 (pyFrom (Ind.htSmooth (Ind.htMid h l)).series ((Ind.htSmooth (Ind.htMid h l)).minperiod - 1)).length (Ind.htStep F (Ind.htZero 6 (pyFrom (Ind.htSmooth (Ind.htMid h l)).series ((Ind.htSmooth (Ind.htMid h l)).minperiod - 1)))) (fun s => Ind.htAt s.q1 6) Ind.HtSt.init)) (Ind.htSmooth (Ind.htMid h l)).minperiod], none) := by
      have hg : ([6, 7] : List ℕ).map (valOps.get [h, l, h, l, Ind.htMid h l, Ind.htSmooth (Ind.htMid h l), fillWith (lit 0) (Ind.htSmooth (Ind.htMid h l)), fillWith (lit 0) (Ind.htSmooth (Ind.htMid h l))]) = [fillWith (lit 0) (Ind.htSmooth (Ind.htMid h l)), fillWith (lit 0) (Ind.htSmooth (Ind.htMid h l))] := rfl
      have hg2 : valOps.get [h, l, h, l, Ind.htMid h l, Ind.htSmooth (Ind.htMid h l), fillWith (lit 0) (Ind.htSmooth (Ind.htMid h l)), fillWith (lit 0) (Ind.htSmooth (Ind.htMid h l))] 5 = (Ind.htSmooth (Ind.htMid h l)) := rfl
      unfold Heap.step
      simp only [hg, hg2, applyMp11, List.map_cons, List.map_nil, htOut1, htOut2, htOut3, buf_eq]
      rfl
    have hrun : run valOps [h, l] (mamaProg F arctan fastlimit slowlimit true) = run valOps
        [h, l, h, l, Ind.htMid h l, Ind.htSmooth (Ind.htMid h l), ⟨patch (fillWith (lit 0) (Ind.htSmooth (Ind.htMid h l))).series ((Ind.htSmooth (Ind.htMid h l)).minperiod - 1)
          (Ind.htBuf 6 (pyFrom (Ind.htSmooth (Ind.htMid h l)).series ((Ind.htSmooth (Ind.htMid h l)).minperiod - 1)).length (Ind.htStep F (Ind.htZero 6 (pyFrom (Ind.htSmooth (Ind.htMid h l)).series ((Ind.htSmooth (Ind.htMid h l)).minperiod - 1)))) (fun s => Ind.htAt s.i1 6) Ind.HtSt.init), (Ind.htSmooth (Ind.htMid h l)).minperiod⟩, ⟨patch (fillWith (lit 0) (Ind.htSmooth (Ind.htMid h l))).series ((Ind.htSmooth (Ind.htMid h l)).minperiod - 1)
          (Ind.htBuf 6 (pyFrom (Ind.htSmooth (Ind.htMid h l)).series ((Ind.htSmooth (Ind.htMid h l)).minperiod - 1)).length (Ind.htStep F (Ind.htZero 6 (pyFrom (Ind.htSmooth (Ind.htMid h l)).series ((Ind.htSmooth (Ind.htMid h l)).minperiod - 1)))) (fun s => Ind.htAt s.q1 6) Ind.HtSt.init), (Ind.htSmooth (Ind.htMid h l)).minperiod⟩, clone (Ind.htSmooth (Ind.htMid h l)) (setFrom (Ind.htSmooth (Ind.htMid h l)).series.length nan ((Ind.htSmooth (Ind.htMid h l)).minperiod - 1)
          (Ind.htBuf 6 (pyFrom (Ind.htSmooth (Ind.htMid h l)).series ((Ind.htSmooth (Ind.htMid h l)).minperiod - 1)).length (Ind.htStep F (Ind.htZero 6 (pyFrom (Ind.htSmooth (Ind.htMid h l)).series ((Ind.htSmooth (Ind.htMid h l)).minperiod - 1)))) (fun s => Ind.htAt s.i1 6) Ind.HtSt.init)) (Ind.htSmooth (Ind.htMid h l)).minperiod, clone (Ind.htSmooth (Ind.htMid h l)) (setFrom (Ind.htSmooth (Ind.htMid h l)).series.length nan ((Ind.htSmooth (Ind.htMid h l)).minperiod - 1)
          (Ind.htBuf 6 (pyFrom (Ind.htSmooth (Ind.htMid h l)).series ((Ind.htSmooth (Ind.htMid h l)).minperiod - 1)).length (Ind.htStep F (Ind.htZero 6 (pyFrom (Ind.htSmooth (Ind.htMid h l)).series ((Ind.htSmooth (Ind.htMid h l)).minperiod - 1)))) (fun s => Ind.htAt s.q1 6) Ind.HtSt.init)) (Ind.htSmooth (Ind.htMid h l)).minperiod] (mamaRest F arctan fastlimit slowlimit 4) := by
      unfold mamaProg htHead htP0
      simp only [if_true, List.cons_append, List.nil_append, Nat.reduceAdd]
      rw [run_ok (s' := [h, l, h]) rfl, run_ok (s' := [h, l, h, l]) rfl, run_ok (s' := [h, l, h, l, Ind.htMid h l]) rfl,
        run_ok (s' := [h, l, h, l, Ind.htMid h l, htPre (Ind.htMid h l)]) rfl, run_ok (s' := [h, l, h, l, Ind.htMid h l, Ind.htSmooth (Ind.htMid h l)]) rfl,
        run_ok (s' := [h, l, h, l, Ind.htMid h l, Ind.htSmooth (Ind.htMid h l), fillWith (lit 0) (Ind.htSmooth (Ind.htMid h l))]) rfl, run_ok (s' := [h, l, h, l, Ind.htMid h l, Ind.htSmooth (Ind.htMid h l), fillWith (lit 0) (Ind.htSmooth (Ind.htMid h l)), fillWith (lit 0) (Ind.htSmooth (Ind.htMid h l))]) rfl, run_ok hs]
    rw [hrun, mamaRest_val4 F arctan fastlimit slowlimit h l (Ind.htMid h l), mama_eq F arctan fastlimit slowlimit (Ind.htMid h l) _ _ _ rfl rfl rfl]
    generalize hal : mamaAlpha fastlimit slowlimit _ = al
    have hal' := hal
    simp only [apply] at hal'
    generalize hal2 : mamaAlpha fastlimit slowlimit _ = al2
    obtain rfl : al2 = al := hal2.symm.trans hal
    cases ewmDyn { pval := 1, seed := .zero } al2 (Ind.htMid h l) with
    | error e => rfl
    | ok m =>
      simp only []
      cases ewmDyn { pval := 0, seed := .zero } (al2.mulS (lit (1 / 2))) m with
      | error e => rfl
      | ok f => exact ⟨rfl, rfl⟩

end HtVal

/-! Results of the Hilbert transform family: the buffers are filled in place, the input is not. -/

section HtThms
variable (F : HtFns V) (m : Mem V) (hm : Spec.Sound m) (two : Bool) (h2 : m.env.length = given two)
include hm h2

/-- **C67** for `ht_dcperiod`, with one or two inputs. -/
theorem C67_ht_dcperiod :
    Spec.Gives m (htProg1 two 6 (Ind.htStep F) Ind.HtSt.smooth Ind.HtSt.init 26 "dcperiod") (htP0 two + 4)
      (.ok (Ind.htDcperiod F (price0 two m))) := ht1_gives m hm two h2 6 26 _ _ _ _

/-- **C67** for `ht_dcphase`. -/
theorem C67_ht_dcphase :
    Spec.Gives m (htProg1 two 31 (Ind.htPhStep F) Prod.snd (Ind.HtSt.init, lit 0) 57 "dcphase") (htP0 two + 4)
      (.ok (Ind.htDcphase F (price0 two m))) := ht1_gives m hm two h2 31 57 _ _ _ _

/-- **C67** for `ht_phasor`: both outputs. -/
theorem C67_ht_phasor :
    Spec.Gives m (htProg2 two 6 (Ind.htStep F) (fun s => Ind.htAt s.i1 6) (fun s => Ind.htAt s.q1 6) Ind.HtSt.init 26
      "inphase" "quadrature") (htP0 two + 6) (.ok (Ind.htInphase F (price0 two m))) ∧
    Spec.Gives m (htProg2 two 6 (Ind.htStep F) (fun s => Ind.htAt s.i1 6) (fun s => Ind.htAt s.q1 6) Ind.HtSt.init 26
      "inphase" "quadrature") (htP0 two + 7) (.ok (Ind.htQuadrature F (price0 two m))) :=
  ⟨ht2_gives m hm two h2 6 26 _ _ _ _ _ _, ht2_gives' m hm two h2 6 26 _ _ _ _ _ _⟩

/-- **C67** for `ht_sine`: both outputs. -/
theorem C67_ht_sine :
    Spec.Gives m (htProg2 two 31 (Ind.htPhStep F) (fun s => Ind.htSin F s.2) (fun s => Ind.htLead F s.2)
      (Ind.HtSt.init, lit 0) 57 "sine" "leadsine") (htP0 two + 6) (.ok (Ind.htSine F (price0 two m))) ∧
    Spec.Gives m (htProg2 two 31 (Ind.htPhStep F) (fun s => Ind.htSin F s.2) (fun s => Ind.htLead F s.2)
      (Ind.HtSt.init, lit 0) 57 "sine" "leadsine") (htP0 two + 7) (.ok (Ind.htLeadsine F (price0 two m))) :=
  ⟨ht2_gives m hm two h2 31 57 _ _ _ _ _ _, ht2_gives' m hm two h2 31 57 _ _ _ _ _ _⟩

/-- **C67** for `ht_trendline`. -/
theorem C67_ht_trendline :
    Spec.Gives m (htProg3 true two 31 (fun p p0 i s => Ind.tlNext F p0 i (Ind.htStep F p i s.ht) s) Ind.TlSt.out Ind.TlSt.init 57
      "trendline") (htP0 two + 4) (.ok (Ind.htTrendline F (price0 two m))) :=
  ht3_gives_raw m hm two h2 31 57 _ _ _ _

/-- **C67** for `ht_trendmode`, where `_apply` is used without `raw`: the function overwrites the smoothed price, not the
input. -/
theorem C67_ht_trendmode :
    Spec.Gives m (htProg3 false two 31 (Ind.tmStep F) (fun s => lit s.trend) Ind.TmSt.init 57 "trendline") (htP0 two + 4)
      (.ok (Ind.htTrendmode F (price0 two m))) :=
  ht3_gives_view m hm two h2 31 57 _ _ _ _

/-- **C67** for `mama`: both outputs, and if the calculation raises an exception. -/
theorem C67_mama (arctan : V → V) (fastlimit slowlimit : V) :
    Spec.Gives m (mamaProg F arctan fastlimit slowlimit two) (htP0 two + 10)
      ((Ind.mama F arctan fastlimit slowlimit (price0 two m)).map Prod.fst) ∧
    Spec.Gives m (mamaProg F arctan fastlimit slowlimit two) (htP0 two + 11)
      ((Ind.mama F arctan fastlimit slowlimit (price0 two m)).map Prod.snd) :=
  ⟨mama_gives m hm two h2 F arctan fastlimit slowlimit, mama_gives' m hm two h2 F arctan fastlimit slowlimit⟩

end HtThms

theorem check_append (nin : ℕ) : ∀ (p q : List (Stmt V)) (st : List Own),
    check nin st (p ++ q) = (check nin st p).bind fun st' => check nin st' q := by
  intro p
  induction p with
  | nil => intro q st; rfl
  | cons t ts ih =>
    intro q st
    show (checkStep nin st t).bind _ = ((checkStep nin st t).bind _).bind _
    rw [Option.bind_assoc]
    congr 1
    funext st'
    exact ih q st'

theorem check_calcs (nin : ℕ) (f : ℕ → List (Line V) → Except Err (Line V)) : ∀ (us : List ℕ) (st : List Own), 1 < st.length →
    check nin st (us.map fun q => Stmt.calc (f q) [1]) = some (st ++ List.replicate us.length .own) := by
  intro us
  induction us with
  | nil => intro st _; simp [check]
  | cons u us ih =>
    intro st h
    show (checkStep nin st (Stmt.calc (f u) [1])).bind _ = _
    have : checkStep nin st (Stmt.calc (f u) [1]) = some (st ++ [.own]) := by
      simp only [checkStep]; rw [if_pos (by simpa using h)]
    rw [this, Option.bind_some, ih _ (by simp; omega), List.append_assoc, List.length_cons, List.replicate_succ]
    rfl

/-- **C67** for `mavp`, which overwrites the array of closing prices it is given (`raw=True` makes that a copy) and raises
the minimum period of the input in place (of its own Line object, not of the caller's): nothing of the caller changes. -/
theorem C67_mavp (m : Mem V) (hm : Spec.Sound m) (h1 : m.env.length = 1) (ma : ℕ → Line V → Except Err (Line V))
    (uper : List ℕ) (per : ℕ → List ℕ) (top : Int) : Spec.Untouched m (run memOps m (mavpProg ma uper per top)).1 := by
  have hc : ∃ st, check 1 [Own.caller] (mavpProg ma uper per top) = some st := by
    unfold mavpProg
    rw [check_append, check_append]
    have e1 : check 1 [Own.caller] ([.wrap 0 "close"] : List (Stmt V)) = some [.caller, .caller] := rfl
    rw [e1, Option.bind_some, check_calcs 1 _ uper _ (by simp), Option.bind_some]
    have e2 : checkStep 1 ([Own.caller, .caller] ++ List.replicate uper.length .own) (.period 1 (top - 1) none : Stmt V) =
        some ([Own.caller, .caller] ++ List.replicate uper.length .own) := by
      simp only [checkStep]; rw [if_pos (by simp)]
    have hw : written ((List.range uper.length).map (· + 2)) (List.replicate uper.length false) = [] := by
      unfold written
      rw [List.map_eq_nil_iff, List.filter_eq_nil_iff]
      intro a ha
      have := (List.of_mem_zip (a := a.1) (b := a.2) ha).2
      rw [List.mem_replicate] at this
      simp [this.2]
    have e3 : checkStep 1 ([Own.caller, .caller] ++ List.replicate uper.length .own) (.apply true (mavpOut uper per) 1
        ((List.range uper.length).map (· + 2)) (List.replicate uper.length false) 1 : Stmt V) =
        some ([Own.caller, .caller] ++ List.replicate uper.length .own ++ [.own]) := by
      simp only [checkStep]
      rw [if_pos]
      · rfl
      · unfold applyOk
        simp only [hw, if_true, List.append_nil, List.all_nil, Bool.true_and, Bool.and_eq_true, decide_eq_true_eq]
        constructor
        · simp
        · simp only [List.all_eq_true, decide_eq_true_eq, List.length_append, List.length_cons, List.length_nil,
            List.length_replicate]
          intro x hx
          simp only [List.mem_cons, List.mem_map, List.mem_range] at hx
          rcases hx with rfl | ⟨a, ha, rfl⟩ <;> omega
    unfold check
    rw [e2, Option.bind_some]
    unfold check
    rw [e3, Option.bind_some]
    unfold check
    have hx : ([Own.caller, .caller] ++ List.replicate uper.length .own ++ [.own])[uper.length + 2]? = some .own := by
      have hl : ([Own.caller, .caller] ++ List.replicate uper.length Own.own).length = uper.length + 2 := by
        simp only [List.length_append, List.length_cons, List.length_nil, List.length_replicate]; omega
      rw [List.getElem?_append_right (by rw [hl]), hl, Nat.sub_self]; rfl
    simp only [checkStep]
    rw [hx]
    exact ⟨_, rfl⟩
  obtain ⟨st, h⟩ := hc
  exact C67_unchanged m hm _ (by rw [h1]; exact h)

/-! ## What the rules exclude -/

/-- Reading `ind.i.<name>.series` of an indicator renames the Series object the caller passed (lines.py:510-512), whatever
it was called before. -/
theorem C67_reading_series_renames (m : Mem V) (hm : Spec.Sound m) (h1 : m.env.length = 1) (name : String) (o : LObj) (c : Cell V)
    (ho : m.env[0]? = some o) (hcell : m.cells[o.cell]? = some c) :
    (run memOps m [.wrap 0 name, .series 1]).1.cells[o.cell]? = some { c with name := name } := by
  have e1 : step memOps m (.wrap 0 name) = ({ m with env := m.env ++ [{ o with name := name }] }, none) := by
    show (match m.env[0]? with | some o => _ | none => _, none) = _
    rw [ho]
  rw [run_ok e1]
  have e2 : (m.env ++ [{ o with name := name }])[1]? = some { o with name := name } := by
    rw [List.getElem?_append_right (by rw [h1]), h1]; rfl
  have e3 : step memOps { m with env := m.env ++ [{ o with name := name }] } (.series 1) =
      ({ cells := m.cells.modify o.cell fun c => { c with name := name }, env := m.env ++ [{ o with name := name }] }, none) := by
    show (match (m.env ++ [{ o with name := name }])[1]? with | some o => _ | none => _, none) = _
    rw [e2]
  rw [run_ok e3]
  show (m.cells.modify o.cell _)[o.cell]? = _
  rw [mod_get, if_pos rfl, hcell]
  rfl

/-- Without the rules the claim is false: `_apply` without `raw` of a function which overwrites its array (as `_mavp`
does), on an input, puts the overwritten values into the Series of the caller. -/
theorem C67_not_raw_overwrites (m : Mem V) (h1 : m.env.length = 1) (o : LObj) (c : Cell V)
    (ho : m.env[0]? = some o) (hcell : m.cells[o.cell]? = some c) (hmp : o.minperiod = 1) (g : List V → List V) :
    (run memOps m [.wrap 0 "close", .apply false (fun x _ => ⟨g x, [], .ok [g x]⟩) 1 [] [] 1]).1.cells[o.cell]? =
      some { c with vals := g c.vals } := by
  have hlt : o.cell < m.cells.length := (List.getElem?_eq_some_iff.1 hcell).1
  have e1 : step memOps m (.wrap 0 "close") = ({ m with env := m.env ++ [{ o with name := "close" }] }, none) := by
    show (match m.env[0]? with | some o => _ | none => _, none) = _
    rw [ho]
  rw [run_ok e1]
  have e2 : (m.env ++ [{ o with name := "close" }])[1]? = some { o with name := "close" } := by
    rw [List.getElem?_append_right (by rw [h1]), h1]; rfl
  set m1 : Mem V := { m with env := m.env ++ [{ o with name := "close" }] } with hm1
  have hget : memOps.get m1 1 = ⟨c.vals, 1⟩ := by
    show Mem.get m1 1 = _
    rw [get_some (m := m1) e2]
    show (⟨((m.cells[o.cell]?).map Cell.vals).getD [], o.minperiod⟩ : Line V) = _
    rw [hcell, hmp]; rfl
  have hpf : pyFrom c.vals (1 - 1 : Int) = c.vals := by simp [pyFrom, pyStart]
  have hpt : ∀ n : List V, patch c.vals (1 - 1 : Int) n = n := by intro n; simp [patch, pyStart]
  have hw : memOps.write m1 1 (g c.vals) = { m1 with cells := m.cells.modify o.cell fun c' => { c' with vals := g c.vals } } := by
    show (match m1.env[1]? with | some o => _ | none => _) = _
    rw [hm1]; simp only []; rw [e2]
  have e3 : step memOps m1 (.apply false (fun x _ => ⟨g x, [], .ok [g x]⟩) 1 [] [] 1) =
      (memOps.push (memOps.write m1 1 (g c.vals)) (clone ⟨c.vals, 1⟩ (setFrom c.vals.length nan (1 - 1) (g c.vals)) 1), none) := by
    have hmpx : applyMp (⟨c.vals, 1⟩ : Line V) [] = 1 := rfl
    unfold Heap.step
    simp only [hget, List.map_nil, hmpx, hpf, hpt, patches, Bool.false_eq_true, if_false, List.append_nil, List.foldl_cons,
      List.foldl_nil]
    rfl
  rw [run_ok e3, hw]
  show ((m.cells.modify o.cell _) ++ _)[o.cell]? = _
  rw [List.getElem?_append_left (by rw [List.length_modify]; exact hlt), mod_get, if_pos rfl, hcell]
  rfl

/-! ## Instances -/

/-- the same Series passed as high and as low -/
def demo : Mem (Ext ℚ) :=
  ⟨[⟨[.fin 1, .fin 2, .fin 3, .fin 2], "mine"⟩], [⟨0, 1, "a"⟩, ⟨0, 1, "b"⟩]⟩

theorem demo_sound : Spec.Sound demo := by
  intro i o h
  match i, h with
  | 0, h => cases h; decide
  | 1, h => cases h; decide

example : Spec.Sound demo ∧ demo.env.length = 2 ∧ demo.env.length = given true := ⟨demo_sound, rfl, rfl⟩

example : ((run memOps demo (sarProg (Ind.sarize (.fin (1 / 50)) (.fin (1 / 5))))).1.get 6).series =
    [.nan, .fin 1, .fin (51 / 50), .fin (687 / 625)] := by decide +kernel

example : (run memOps demo (sarProg (Ind.sarize (.fin (1 / 50)) (.fin (1 / 5))))).1.cells[0]? =
    some ⟨[.fin 1, .fin 2, .fin 3, .fin 2], "mine"⟩ := by decide +kernel

example : check 2 [Own.caller, .caller] (sarProg (V := Ext ℚ) (Ind.sarize (.fin 1) (.fin 1))) =
    some [.caller, .caller, .caller, .caller, .own, .shared, .shared] := rfl

/-- a program the rules reject: writing into the Series of an input -/
example : check 1 [Own.caller] ([.wrap 0 "close", .setval 1 0 1 (.fin 0)] : List (Stmt (Ext ℚ))) = none := rfl

/-- and one where an output shares a Series which is then written -/
example : check 1 [Own.caller] ([.wrap 0 "close", calc1 id 1, .wrap 2 "o", .period 2 1 (some (.fin 0))] : List (Stmt (Ext ℚ)))
    = none := rfl

end Bta.Heap
