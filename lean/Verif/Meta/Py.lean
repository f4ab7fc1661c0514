/-!
# Python containers used by the meta layer

Trusted description of the python 3 behaviour the code relies on: dictionaries keep the insertion order, an update of an
existing key keeps its position, `dict.fromkeys` removes repetitions keeping the first of them.
-/

namespace Py

variable {α β : Type} [DecidableEq α]

/-- `list(dict.fromkeys(l))` -/
def fromkeys : List α → List α
  | [] => []
  | x :: xs => x :: (fromkeys xs).filter (fun y => decide (y ≠ x))

/-- A dictionary: pairs in insertion order. -/
abbrev Dict (α β : Type) := List (α × β)

/-- `d.get(k)` -/
def get? : Dict α β → α → Option β
  | [], _ => none
  | (k, v) :: d, x => if k = x then some v else get? d x

/-- `d[k] = v` -/
def set : Dict α β → α → β → Dict α β
  | [], x, v => [(x, v)]
  | (k, w) :: d, x, v => if k = x then (k, v) :: d else (k, w) :: set d x v

/-- `d.setdefault(k, v)` -/
def setdefault (d : Dict α β) (x : α) (v : β) : Dict α β :=
  match get? d x with
  | some _ => d
  | none => d ++ [(x, v)]

/-- `d.update(e)` (also `dict(pairs)` on the empty dictionary) -/
def update (d : Dict α β) (e : List (α × β)) : Dict α β := e.foldl (fun d p => set d p.1 p.2) d

/-- `list(d)` -/
def keys (d : Dict α β) : List α := d.map Prod.fst

/-- `d.pop(k)` for a key which is there (or not: unchanged) -/
def erase : Dict α β → α → Dict α β
  | [], _ => []
  | (k, v) :: d, x => if k = x then d else (k, v) :: erase d x

/-- `l.index(x)`: first position, `none` is the `ValueError`. -/
def index? : List α → α → Option Nat
  | [], _ => none
  | y :: l, x => if y = x then some 0 else (index? l x).map (· + 1)

/-- `l.remove(x)`: first occurrence, `none` is the `ValueError`. -/
def remove? : List α → α → Option (List α)
  | [], _ => none
  | y :: l, x => if y = x then some l else (remove? l x).map (y :: ·)

/-- `l.pop()`: last element and the rest, `none` is the `IndexError`. -/
def pop? {γ : Type} (l : List γ) : Option (γ × List γ) := l.getLast?.map (fun x => (x, l.dropLast))

/-! ## Lemmas -/

theorem mem_fromkeys {x : α} {l : List α} : x ∈ fromkeys l ↔ x ∈ l := by
  induction l with
  | nil => simp [fromkeys]
  | cons y l ih =>
    simp only [fromkeys, List.mem_cons, List.mem_filter, ih, decide_eq_true_eq]
    by_cases h : x = y <;> simp [h]

theorem nodup_fromkeys (l : List α) : (fromkeys l).Nodup := by
  induction l with
  | nil => simp [fromkeys]
  | cons y l ih =>
    simp only [fromkeys, List.nodup_cons, List.mem_filter, decide_eq_true_eq]
    exact ⟨fun h => h.2 rfl, ih.filter _⟩

theorem fromkeys_eq {l : List α} (h : l.Nodup) : fromkeys l = l := by
  induction l with
  | nil => rfl
  | cons y l ih =>
    rw [List.nodup_cons] at h
    rw [fromkeys, ih h.2, List.filter_eq_self.2]
    intro a ha
    simp only [decide_eq_true_eq]
    rintro rfl
    exact h.1 ha

theorem fromkeys_append (a b : List α) : fromkeys (a ++ b) = fromkeys a ++ (fromkeys b).filter (fun x => decide (x ∉ a)) := by
  induction a with
  | nil => simp only [List.nil_append, fromkeys]; exact (List.filter_eq_self.2 (by simp)).symm
  | cons y a ih =>
    simp only [List.cons_append, fromkeys, ih, List.filter_append, List.filter_filter, List.cons.injEq, true_and,
      List.append_cancel_left_eq]
    congr 1
    funext x
    simp only [List.mem_cons]
    by_cases h1 : x = y <;> by_cases h2 : x ∈ a <;> simp [h1, h2]

theorem get?_set (d : Dict α β) (x y : α) (v : β) : get? (set d x v) y = if x = y then some v else get? d y := by
  induction d with
  | nil => simp [set, get?]
  | cons p d ih =>
    obtain ⟨k, w⟩ := p
    simp only [set]
    by_cases hk : k = x
    · subst hk
      by_cases hy : k = y <;> simp [get?, hy]
    · by_cases hy : k = y
      · subst hy
        simp only [if_neg hk, get?, if_true]
        rw [if_neg (fun h => hk h.symm)]
      · simp only [if_neg hk, get?, if_neg hy, ih]

theorem get?_append (d e : Dict α β) (x : α) : get? (d ++ e) x = (get? d x).or (get? e x) := by
  induction d with
  | nil => simp [get?]
  | cons p d ih =>
    obtain ⟨k, w⟩ := p
    by_cases hk : k = x <;> simp [get?, hk, ih]

theorem get?_setdefault (d : Dict α β) (x y : α) (v : β) :
    get? (setdefault d x v) y = if x = y then some ((get? d x).getD v) else get? d y := by
  unfold setdefault
  cases h : get? d x with
  | some w =>
    by_cases hx : x = y
    · subst hx; simp [h]
    · simp [hx]
  | none =>
    by_cases hx : x = y
    · subst hx; simp [get?_append, h, get?]
    · simp [get?_append, get?, hx]

theorem mem_keys_iff {d : Dict α β} {x : α} : x ∈ keys d ↔ (get? d x).isSome := by
  induction d with
  | nil => simp [keys, get?]
  | cons p d ih =>
    obtain ⟨k, w⟩ := p
    simp only [keys, List.map_cons, List.mem_cons, get?] at *
    by_cases hk : k = x
    · simp [hk]
    · simp only [if_neg hk]
      rw [← ih]
      exact ⟨fun h => h.resolve_left (fun e => hk e.symm), Or.inr⟩

theorem get?_eq_none_iff {d : Dict α β} {x : α} : get? d x = none ↔ x ∉ keys d := by
  rw [mem_keys_iff]; cases get? d x <;> simp

theorem keys_set (d : Dict α β) (x : α) (v : β) : keys (set d x v) = if x ∈ keys d then keys d else keys d ++ [x] := by
  induction d with
  | nil => simp [set, keys]
  | cons p d ih =>
    obtain ⟨k, w⟩ := p
    by_cases hk : k = x
    · subst hk
      simp [set, keys]
    · have h2 : x ≠ k := fun h => hk h.symm
      have ih' : List.map Prod.fst (set d x v) = if x ∈ List.map Prod.fst d then List.map Prod.fst d else List.map Prod.fst d ++ [x] := ih
      simp only [set, if_neg hk, keys, List.map_cons, List.mem_cons, h2, false_or, ih']
      by_cases h3 : x ∈ List.map Prod.fst d <;> simp [h3]

theorem nodup_keys_set {d : Dict α β} (h : (keys d).Nodup) (x : α) (v : β) : (keys (set d x v)).Nodup := by
  rw [keys_set]
  by_cases h3 : x ∈ keys d
  · simpa [h3] using h
  · rw [if_neg h3, List.nodup_append]
    refine ⟨h, by simp, ?_⟩
    intro a ha b hb
    rw [List.mem_singleton] at hb
    subst hb
    rintro rfl
    exact h3 ha

theorem mem_keys_set {d : Dict α β} {x y : α} {v : β} : y ∈ keys (set d x v) ↔ y = x ∨ y ∈ keys d := by
  rw [mem_keys_iff, get?_set, mem_keys_iff]
  by_cases h : x = y
  · simp [h]
  · simp only [if_neg h]
    exact ⟨Or.inr, fun h' => h'.resolve_left (fun e => h e.symm)⟩

/-- After `d.update(e)`, the last occurrence of a key in `e` counts, else the value in `d`. -/
theorem get?_update (d : Dict α β) (e : List (α × β)) (x : α) :
    get? (update d e) x = (get? e.reverse x).or (get? d x) := by
  induction e generalizing d with
  | nil => simp [update, get?]
  | cons p e ih =>
    obtain ⟨k, w⟩ := p
    have : update d ((k, w) :: e) = update (set d k w) e := rfl
    rw [this, ih, get?_set, List.reverse_cons, get?_append]
    by_cases hk : k = x
    · subst hk; cases get? e.reverse k <;> simp [get?]
    · simp [get?, hk]

theorem nodup_keys_update {d : Dict α β} (h : (keys d).Nodup) (e : List (α × β)) : (keys (update d e)).Nodup := by
  induction e generalizing d with
  | nil => exact h
  | cons p e ih => exact ih (nodup_keys_set h _ _)

theorem mem_keys_update {d : Dict α β} {e : List (α × β)} {x : α} : x ∈ keys (update d e) ↔ x ∈ keys d ∨ x ∈ e.map Prod.fst := by
  induction e generalizing d with
  | nil => simp [update]
  | cons p e ih =>
    have : update d (p :: e) = update (set d p.1 p.2) e := rfl
    rw [this, ih, mem_keys_set, List.map_cons, List.mem_cons]
    constructor
    · rintro ((h | h) | h)
      · exact Or.inr (Or.inl h)
      · exact Or.inl h
      · exact Or.inr (Or.inr h)
    · rintro (h | h | h)
      · exact Or.inl (Or.inr h)
      · exact Or.inl (Or.inl h)
      · exact Or.inr h

theorem get?_eq_some_mem {d : Dict α β} {x : α} {v : β} (h : get? d x = some v) : (x, v) ∈ d := by
  induction d with
  | nil => simp [get?] at h
  | cons p d ih =>
    obtain ⟨k, w⟩ := p
    by_cases hk : k = x
    · subst hk
      simp only [get?, if_true, Option.some.injEq] at h
      subst h
      exact List.mem_cons_self ..
    · simp only [get?, if_neg hk] at h
      exact List.mem_cons_of_mem _ (ih h)

theorem mem_get?_of_nodup {d : Dict α β} (hn : (keys d).Nodup) {x : α} {v : β} (h : (x, v) ∈ d) : get? d x = some v := by
  induction d with
  | nil => simp at h
  | cons p d ih =>
    obtain ⟨k, w⟩ := p
    simp only [keys, List.map_cons, List.nodup_cons] at hn
    rcases List.mem_cons.1 h with h | h
    · cases h; simp [get?]
    · have : k ≠ x := by
        rintro rfl
        exact hn.1 (List.mem_map.2 ⟨_, h, rfl⟩)
      simp [get?, this, ih hn.2 h]

theorem index?_some {l : List α} {x : α} {i : Nat} (h : index? l x = some i) : l[i]? = some x ∧ ∀ j < i, l[j]? ≠ some x := by
  induction l generalizing i with
  | nil => simp [index?] at h
  | cons y l ih =>
    by_cases hy : y = x
    · subst hy
      simp only [index?, if_true, Option.some.injEq] at h
      subst h
      simp
    · simp only [index?, if_neg hy, Option.map_eq_some_iff] at h
      obtain ⟨k, hk, rfl⟩ := h
      obtain ⟨h1, h2⟩ := ih hk
      refine ⟨by simpa using h1, ?_⟩
      intro j hj
      cases j with
      | zero => simpa using hy
      | succ j => simpa using h2 j (by omega)

theorem index?_lt {l : List α} {x : α} {i : Nat} (h : index? l x = some i) : i < l.length := by
  have := (index?_some h).1
  rw [List.getElem?_eq_some_iff] at this
  exact this.1

theorem index?_none {l : List α} {x : α} : index? l x = none ↔ x ∉ l := by
  induction l with
  | nil => simp [index?]
  | cons y l ih =>
    by_cases hy : y = x
    · simp [index?, hy]
    · simp only [index?, if_neg hy, Option.map_eq_none_iff, ih, List.mem_cons, not_or]
      exact ⟨fun h => ⟨fun e => hy e.symm, h⟩, fun h => h.2⟩

theorem index?_isSome {l : List α} {x : α} (h : x ∈ l) : ∃ i, index? l x = some i := by
  cases hx : index? l x with
  | some i => exact ⟨i, rfl⟩
  | none => exact absurd h (index?_none.1 hx)

theorem remove?_none {l : List α} {x : α} : remove? l x = none ↔ x ∉ l := by
  induction l with
  | nil => simp [remove?]
  | cons y l ih =>
    by_cases hy : y = x
    · simp [remove?, hy]
    · simp only [remove?, if_neg hy, Option.map_eq_none_iff, ih, List.mem_cons, not_or]
      exact ⟨fun h => ⟨fun e => hy e.symm, h⟩, fun h => h.2⟩

theorem remove?_some {l l' : List α} {x : α} (h : remove? l x = some l') : x ∈ l ∧ l.length = l'.length + 1 ∧ l' = l.erase x := by
  induction l generalizing l' with
  | nil => simp [remove?] at h
  | cons y l ih =>
    by_cases hy : y = x
    · subst hy
      simp only [remove?, if_true, Option.some.injEq] at h
      subst h
      simp
    · simp only [remove?, if_neg hy, Option.map_eq_some_iff] at h
      obtain ⟨k, hk, rfl⟩ := h
      obtain ⟨h1, h2, h3⟩ := ih hk
      refine ⟨List.mem_cons_of_mem _ h1, by simp [h2], ?_⟩
      rw [List.erase_cons_tail (by simpa using hy), h3]

end Py
