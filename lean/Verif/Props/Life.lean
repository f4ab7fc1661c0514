import Verif.Spec.Life
import Mathlib.Data.List.Nodup
import Mathlib.Data.List.Basic

/-!
# Memory (C109)
-/

namespace Bta.Life

/-- what all histories keep -/
structure Inv (w : World) : Prop where
  nodup : (w.frames.map Prod.fst).Nodup
  fr : ∀ f ∈ w.frames, ∃ i o at', w.heap[f.1]? = some (.ind i o at')
  out : ∀ (a : Nat) i o at', w.heap[a]? = some (.ind i o at') →
    o = a + 1 ∧ (i = a + 1 ∨ i = a + 2) ∧ i ∈ w.table ∧ o ∈ w.table
  tab : ∀ a ∈ w.table, ∃ sl, w.heap[a]? = some (.lines sl)
  tnodup : w.table.Nodup
  sl : ∀ (a : Nat) sl, w.heap[a]? = some (.lines sl) → ∀ x ∈ sl, ∃ s, w.heap[x.2]? = some (.line s)
  ln : ∀ (a : Nat) s, w.heap[a]? = some (.line s) → ∃ n, w.heap[s]? = some (.series n)

/-- what later events leave as it was -/
structure Later (w w' : World) : Prop where
  series : ∀ (a : Nat) n, w.heap[a]? = some (.series n) → w'.heap[a]? = some (.series n)
  line : ∀ (a : Nat) s, w.heap[a]? = some (.line s) → w'.heap[a]? = some (.line s)
  table : ∀ a ∈ w.table, a ∈ w'.table
  /-- the inputs and outputs of calls which have ended -/
  lines : ∀ (s : Nat) i o at', w.heap[s]? = some (.ind i o at') → s ∉ w.frames.map Prod.fst →
    s ∉ w'.frames.map Prod.fst ∧ (∃ at'', w'.heap[s]? = some (.ind i o at'')) ∧
    ∀ c, c = i ∨ c = o → w'.heap[c]? = w.heap[c]?

theorem mapM_seriesOf {w : World} (hi : Inv w) : ∀ {args ss : List Addr}, args.mapM w.seriesOf = some ss →
    ∀ s ∈ ss, ∃ n, w.heap[s]? = some (.series n)
  | [], ss, h, s, hs => by
    simp only [List.mapM_nil, Option.pure_def, Option.some.injEq] at h
    subst h; cases hs
  | a :: args, ss, h, s, hs => by
    rw [List.mapM_cons] at h
    cases ha : w.seriesOf a with
    | none => rw [ha] at h; cases h
    | some t =>
      rw [ha] at h
      cases hr : args.mapM w.seriesOf with
      | none => rw [hr] at h; cases h
      | some ts =>
        rw [hr] at h
        cases h
        rcases List.mem_cons.mp hs with rfl | hs
        · unfold World.seriesOf at ha
          split at ha
          · rename_i n hn; cases ha; exact ⟨n, hn⟩
          · rename_i x hx; cases ha; exact hi.ln _ _ hx
          · split at ha
            · split at ha
              · rename_i x hx; cases ha; exact hi.ln _ _ hx
              · cases ha
            · cases ha
          · cases ha
        · exact mapM_seriesOf hi hr s hs

theorem Inv.start : Inv World.start := by
  constructor <;> simp [World.start]

theorem get_new {h : List Obj} {t : List Obj} {a : Nat} {o : Obj} (hg : (h ++ t)[a]? = some o) :
    h[a]? = some o ∨ ∃ k, a = h.length + k ∧ t[k]? = some o := by
  rcases Nat.lt_or_ge a h.length with hl | hl
  · left; rwa [List.getElem?_append_left hl] at hg
  · right
    rw [List.getElem?_append_right hl] at hg
    exact ⟨a - h.length, by omega, hg⟩

theorem get_old {h : List Obj} (t : List Obj) {a : Nat} {o : Obj} (hg : h[a]? = some o) : (h ++ t)[a]? = some o := by
  rw [List.getElem?_append_left (List.getElem?_eq_some_iff.mp hg).1]; exact hg

theorem lt_of_get {h : List Obj} {a : Nat} {o : Obj} (hg : h[a]? = some o) : a < h.length :=
  (List.getElem?_eq_some_iff.mp hg).1

theorem Inv.call {w : World} (hi : Inv w) (args : List Addr) : Inv (w.call args) := by
  unfold World.call
  dsimp only
  split
  · rename_i ss hss
    have hser := mapM_seriesOf hi hss
    have key : ∀ (k : Nat) (o : Obj), ([Obj.ind (w.heap.length + 2) (w.heap.length + 1) [], .lines [],
        .lines (slotsFrom (w.heap.length + 3) ss.length)] ++ ss.map .line)[k]? = some o →
        (k = 0 ∧ o = .ind (w.heap.length + 2) (w.heap.length + 1) []) ∨ (k = 1 ∧ o = .lines []) ∨
        (k = 2 ∧ o = .lines (slotsFrom (w.heap.length + 3) ss.length)) ∨ (∃ s ∈ ss, 3 ≤ k ∧ o = .line s) := by
      intro k o hk
      match k, hk with
      | 0, hk => simp at hk; grind
      | 1, hk => simp at hk; grind
      | 2, hk => simp at hk; grind
      | k + 3, hk =>
        right; right; right
        simp at hk
        grind
    constructor
    · simp only [List.map_cons, List.nodup_cons]
      refine ⟨?_, hi.nodup⟩
      intro hm
      obtain ⟨f, hf, he⟩ := List.mem_map.mp hm
      obtain ⟨i, o, at', hg⟩ := hi.fr f hf
      have := lt_of_get hg
      rw [he] at this
      exact Nat.lt_irrefl _ this
    · intro f hf
      rcases List.mem_cons.mp hf with rfl | hf
      · exact ⟨w.heap.length + 2, w.heap.length + 1, [], by simp⟩
      · obtain ⟨i, o, at', hg⟩ := hi.fr f hf
        exact ⟨i, o, at', get_old _ hg⟩
    · intro a i o at' hg
      rcases get_new hg with hg | ⟨k, rfl, hk⟩
      · obtain ⟨h1, h2, h3, h4⟩ := hi.out a i o at' hg
        exact ⟨h1, h2, by simp [h3], by simp [h4]⟩
      · rcases key k _ hk with ⟨rfl, he⟩ | ⟨_, he⟩ | ⟨_, he⟩ | ⟨_, _, _, he⟩ <;> cases he
        simp
    · intro a ha
      simp only [List.mem_cons] at ha
      rcases ha with rfl | rfl | ha
      · exact ⟨slotsFrom (w.heap.length + 3) ss.length, by simp⟩
      · exact ⟨[], by simp⟩
      · obtain ⟨sl, hg⟩ := hi.tab a ha
        exact ⟨sl, get_old _ hg⟩
    · have hlt : ∀ a ∈ w.table, a < w.heap.length := fun a ha => by
        obtain ⟨sl, hg⟩ := hi.tab a ha; exact lt_of_get hg
      simp only [List.nodup_cons, List.mem_cons, not_or]
      refine ⟨⟨by simp, fun hm => ?_⟩, fun hm => ?_, hi.tnodup⟩
      · exact absurd (hlt _ hm) (Nat.not_lt.mpr (Nat.le_add_right _ _))
      · exact absurd (hlt _ hm) (Nat.not_lt.mpr (Nat.le_add_right _ _))
    · intro a sl hg x hx
      rcases get_new hg with hg | ⟨k, rfl, hk⟩
      · obtain ⟨s, hs⟩ := hi.sl a sl hg x hx
        exact ⟨s, get_old _ hs⟩
      · rcases key k _ hk with ⟨_, he⟩ | ⟨_, he⟩ | ⟨_, he⟩ | ⟨_, _, _, he⟩ <;> cases he
        · cases hx
        · unfold slotsFrom at hx
          obtain ⟨j, hj, rfl⟩ := List.mem_map.mp hx
          have hj' := List.mem_range.mp hj
          refine ⟨ss[j], ?_⟩
          simp only []
          rw [List.getElem?_append_right (by omega), show w.heap.length + 3 + j - w.heap.length = j + 3 by omega]
          simp [hj']
    · intro a s hg
      rcases get_new hg with hg | ⟨k, rfl, hk⟩
      · obtain ⟨n, hn⟩ := hi.ln a s hg
        exact ⟨n, get_old _ hn⟩
      · rcases key k _ hk with ⟨_, he⟩ | ⟨_, he⟩ | ⟨_, he⟩ | ⟨t, ht, _, he⟩ <;> cases he
        obtain ⟨n, hn⟩ := hser s ht
        exact ⟨n, get_old _ hn⟩
  · have key : ∀ (k : Nat) (o : Obj), ([Obj.ind (w.heap.length + 1) (w.heap.length + 1) [], .lines []])[k]? = some o →
        (k = 0 ∧ o = .ind (w.heap.length + 1) (w.heap.length + 1) []) ∨ (k = 1 ∧ o = .lines []) := by
      intro k o hk
      match k, hk with
      | 0, hk => simp at hk; grind
      | 1, hk => simp at hk; grind
      | k + 2, hk => simp at hk
    constructor
    · exact hi.nodup
    · intro f hf
      obtain ⟨i, o, at', hg⟩ := hi.fr f hf
      exact ⟨i, o, at', get_old _ hg⟩
    · intro a i o at' hg
      rcases get_new hg with hg | ⟨k, rfl, hk⟩
      · obtain ⟨h1, h2, h3, h4⟩ := hi.out a i o at' hg
        exact ⟨h1, h2, by simp [h3], by simp [h4]⟩
      · rcases key k _ hk with ⟨rfl, he⟩ | ⟨_, he⟩ <;> cases he
        simp
    · intro a ha
      simp only [List.mem_cons] at ha
      rcases ha with rfl | ha
      · exact ⟨[], by simp⟩
      · obtain ⟨sl, hg⟩ := hi.tab a ha
        exact ⟨sl, get_old _ hg⟩
    · simp only [List.nodup_cons]
      refine ⟨fun hm => ?_, hi.tnodup⟩
      obtain ⟨sl, hg⟩ := hi.tab _ hm
      have := lt_of_get hg; omega
    · intro a sl hg x hx
      rcases get_new hg with hg | ⟨k, rfl, hk⟩
      · obtain ⟨s, hs⟩ := hi.sl a sl hg x hx
        exact ⟨s, get_old _ hs⟩
      · rcases key k _ hk with ⟨_, he⟩ | ⟨_, he⟩ <;> cases he
        cases hx
    · intro a s hg
      rcases get_new hg with hg | ⟨k, rfl, hk⟩
      · obtain ⟨n, hn⟩ := hi.ln a s hg
        exact ⟨n, get_old _ hn⟩
      · rcases key k _ hk with ⟨_, he⟩ | ⟨_, he⟩ <;> cases he

theorem Inv.assign {w : World} (hi : Inv w) (k n : Nat) : Inv (w.assign k n) := by
  unfold World.assign
  split
  · exact hi
  · rename_i s held fs hfs
    split
    · rename_i i o at' hs
      split
      · rename_i sl ho
        have hol := lt_of_get ho
        have hne : ∀ (a : Nat) (x : Obj), w.heap[a]? = some x → (∀ sl, x ≠ .lines sl) →
            ((w.heap.set o (.lines (sl.filter (fun x => x.1 != k) ++ [(k, w.heap.length + 1)]))) ++
              [Obj.series n, .line w.heap.length])[a]? = some x := by
          intro a x ha hx
          refine get_old _ ?_
          rw [List.getElem?_set_ne (by rintro rfl; rw [ho] at ha; cases ha; exact hx _ rfl)]
          exact ha
        have key : ∀ (a : Nat) (x : Obj), ((w.heap.set o (.lines (sl.filter (fun x => x.1 != k) ++ [(k, w.heap.length + 1)]))) ++
              [Obj.series n, .line w.heap.length])[a]? = some x →
            (a = o ∧ x = .lines (sl.filter (fun x => x.1 != k) ++ [(k, w.heap.length + 1)])) ∨
            (a ≠ o ∧ w.heap[a]? = some x) ∨ (a = w.heap.length ∧ x = .series n) ∨
            (a = w.heap.length + 1 ∧ x = .line w.heap.length) := by
          intro a x ha
          rcases get_new ha with ha | ⟨j, rfl, hj⟩
          · by_cases hao : a = o
            · subst hao
              rw [List.getElem?_set_self hol] at ha
              cases ha; exact Or.inl ⟨rfl, rfl⟩
            · rw [List.getElem?_set_ne (Ne.symm hao)] at ha
              exact Or.inr (Or.inl ⟨hao, ha⟩)
          · rw [List.length_set]
            match j, hj with
            | 0, hj => simp at hj; grind
            | 1, hj => simp at hj; grind
            | j + 2, hj => simp at hj
        have hnew : ((w.heap.set o (.lines (sl.filter (fun x => x.1 != k) ++ [(k, w.heap.length + 1)]))) ++
              [Obj.series n, .line w.heap.length])[w.heap.length]? = some (.series n) := by
          rw [List.getElem?_append_right (by simp)]; simp
        have hnew1 : ((w.heap.set o (.lines (sl.filter (fun x => x.1 != k) ++ [(k, w.heap.length + 1)]))) ++
              [Obj.series n, .line w.heap.length])[w.heap.length + 1]? = some (.line w.heap.length) := by
          rw [List.getElem?_append_right (by simp)]; simp
        constructor
        · exact hi.nodup
        · intro f hf
          obtain ⟨i, o', a', hg⟩ := hi.fr f hf
          exact ⟨i, o', a', hne _ _ hg (by simp)⟩
        · intro a i' o' a' hg
          rcases key a _ hg with ⟨_, he⟩ | ⟨_, he⟩ | ⟨_, he⟩ | ⟨_, he⟩
          · cases he
          · exact hi.out a i' o' a' he
          · cases he
          · cases he
        · intro a ha
          obtain ⟨sl', hg⟩ := hi.tab a ha
          by_cases hao : a = o
          · subst hao
            exact ⟨_, get_old _ (List.getElem?_set_self hol)⟩
          · refine ⟨sl', get_old _ ?_⟩
            rw [List.getElem?_set_ne (Ne.symm hao)]; exact hg
        · exact hi.tnodup
        · intro a sl' hg x hx
          rcases key a _ hg with ⟨_, he⟩ | ⟨_, he⟩ | ⟨_, he⟩ | ⟨_, he⟩
          · cases he
            rcases List.mem_append.mp hx with hx | hx
            · obtain ⟨t, ht⟩ := hi.sl o sl ho x (List.mem_of_mem_filter hx)
              exact ⟨t, hne _ _ ht (by simp)⟩
            · cases List.mem_singleton.mp hx
              exact ⟨_, hnew1⟩
          · obtain ⟨t, ht⟩ := hi.sl a sl' he x hx
            exact ⟨t, hne _ _ ht (by simp)⟩
          · cases he
          · cases he
        · intro a t hg
          rcases key a _ hg with ⟨_, he⟩ | ⟨_, he⟩ | ⟨_, he⟩ | ⟨_, he⟩
          · cases he
          · obtain ⟨m, hm⟩ := hi.ln a t he
            exact ⟨m, hne _ _ hm (by simp)⟩
          · cases he
          · cases he
            exact ⟨n, hnew⟩
      · exact hi
    · exact hi

theorem Inv.store {w : World} (hi : Inv w) (j : Nat) : Inv (w.store j) := by
  unfold World.store
  split
  · exact hi
  · rename_i s held fs hfs
    split
    · rename_i r i o at' hr hs
      have hsl := lt_of_get hs
      have key : ∀ (a : Nat) (x : Obj), (w.heap.set s (.ind i o (r :: at')))[a]? = some x →
          (a = s ∧ x = .ind i o (r :: at')) ∨ w.heap[a]? = some x := by
        intro a x ha
        by_cases hao : a = s
        · subst hao
          rw [List.getElem?_set_self hsl] at ha
          cases ha; exact Or.inl ⟨rfl, rfl⟩
        · rw [List.getElem?_set_ne (Ne.symm hao)] at ha
          exact Or.inr ha
      have hne : ∀ (a : Nat) (x : Obj), w.heap[a]? = some x → (∀ i o at', x ≠ .ind i o at') →
          (w.heap.set s (.ind i o (r :: at')))[a]? = some x := by
        intro a x ha hx
        rw [List.getElem?_set_ne (by rintro rfl; rw [hs] at ha; cases ha; exact hx _ _ _ rfl)]
        exact ha
      constructor
      · exact hi.nodup
      · intro f hf
        obtain ⟨i', o', a', hg⟩ := hi.fr f hf
        by_cases hao : f.1 = s
        · exact ⟨i, o, r :: at', by simp only []; rw [hao, List.getElem?_set_self hsl]⟩
        · exact ⟨i', o', a', by simp only []; rw [List.getElem?_set_ne (Ne.symm hao)]; exact hg⟩
      · intro a i' o' a' hg
        rcases key a _ hg with ⟨rfl, he⟩ | he
        · cases he; exact hi.out _ _ _ _ hs
        · exact hi.out a i' o' a' he
      · intro a ha
        obtain ⟨sl', hg⟩ := hi.tab a ha
        exact ⟨sl', hne _ _ hg (by simp)⟩
      · exact hi.tnodup
      · intro a sl' hg x hx
        rcases key a _ hg with ⟨_, he⟩ | he
        · cases he
        · obtain ⟨t, ht⟩ := hi.sl a sl' he x hx
          exact ⟨t, hne _ _ ht (by simp)⟩
      · intro a t hg
        rcases key a _ hg with ⟨_, he⟩ | he
        · cases he
        · obtain ⟨m, hm⟩ := hi.ln a t he
          exact ⟨m, hne _ _ hm (by simp)⟩
    · exact hi

theorem Inv.step {w : World} (hi : Inv w) (e : Ev) : Inv (w.step e) := by
  cases e with
  | series n =>
    have key : ∀ (a : Nat) (x : Obj), (w.heap ++ [Obj.series n])[a]? = some x → w.heap[a]? = some x ∨ x = .series n := by
      intro a x ha
      rcases get_new ha with ha | ⟨j, rfl, hj⟩
      · exact Or.inl ha
      · match j, hj with
        | 0, hj => simp at hj; exact Or.inr hj.symm
        | j + 1, hj => simp at hj
    constructor
    · exact hi.nodup
    · intro f hf
      obtain ⟨i, o, a', hg⟩ := hi.fr f hf
      exact ⟨i, o, a', get_old _ hg⟩
    · intro a i o a' hg
      rcases key a _ hg with he | he
      · exact hi.out a i o a' he
      · cases he
    · intro a ha
      obtain ⟨sl', hg⟩ := hi.tab a ha
      exact ⟨sl', get_old _ hg⟩
    · exact hi.tnodup
    · intro a sl' hg x hx
      rcases key a _ hg with he | he
      · obtain ⟨t, ht⟩ := hi.sl a sl' he x hx
        exact ⟨t, get_old _ ht⟩
      · cases he
    · intro a t hg
      rcases key a _ hg with he | he
      · obtain ⟨m, hm⟩ := hi.ln a t he
        exact ⟨m, get_old _ hm⟩
      · cases he
  | call args => exact hi.call args
  | assign k n => exact hi.assign k n
  | store i => exact hi.store i
  | ret =>
    show Inv w.ret
    unfold World.ret
    split
    · exact hi
    · exact ⟨by simp, by simp, hi.out, hi.tab, hi.tnodup, hi.sl, hi.ln⟩
    · rename_i s _ t held fs hfs
      have h1 := hi.nodup
      have h2 := hi.fr
      rw [hfs] at h1 h2
      simp only [List.map_cons, List.nodup_cons] at h1
      refine ⟨by simpa using h1.2, ?_, hi.out, hi.tab, hi.tnodup, hi.sl, hi.ln⟩
      intro f hf
      rcases List.mem_cons.mp hf with rfl | hf
      · exact h2 (t, held) (by simp)
      · exact h2 f (by simp [hf])
  | raise =>
    refine ⟨?_, fun f hf => hi.fr f (List.mem_of_mem_tail hf), hi.out, hi.tab, hi.tnodup, hi.sl, hi.ln⟩
    show (w.frames.tail.map Prod.fst).Nodup
    rw [List.map_tail]
    exact hi.nodup.sublist (List.tail_sublist _)
  | drop i => exact ⟨hi.nodup, hi.fr, hi.out, hi.tab, hi.tnodup, hi.sl, hi.ln⟩

theorem Inv.fold {w : World} (hi : Inv w) : ∀ h : List Ev, Inv (h.foldl World.step w)
  | [] => hi
  | e :: h => (hi.step e).fold h

theorem inv_run (h : List Ev) : Inv (run h) := Inv.start.fold h

theorem Later.refl (w : World) : Later w w :=
  ⟨fun _ _ h => h, fun _ _ h => h, fun _ h => h, fun _ _ _ at' h hf => ⟨hf, ⟨at', h⟩, fun _ _ => rfl⟩⟩

theorem Later.trans {w w' w'' : World} (h : Later w w') (h' : Later w' w'') : Later w w'' where
  series a n hn := h'.series a n (h.series a n hn)
  line a s hs := h'.line a s (h.line a s hs)
  table a ha := h'.table a (h.table a ha)
  lines s i o at' hs hf := by
    obtain ⟨h1, ⟨a1, h2⟩, h3⟩ := h.lines s i o at' hs hf
    obtain ⟨g1, g2, g3⟩ := h'.lines s i o a1 h2 h1
    exact ⟨g1, g2, fun c hc => (g3 c hc).trans (h3 c hc)⟩

/-- adding objects behind the others -/
theorem Later.grow {w : World} (hi : Inv w) (t : List Obj) {tb st fr vs} (htb : ∀ a ∈ w.table, a ∈ tb)
    (hfr : ∀ f ∈ fr, f.1 ∈ w.frames.map Prod.fst ∨ w.heap.length ≤ f.1) : Later w ⟨w.heap ++ t, tb, st, fr, vs⟩ where
  series _ _ h := get_old _ h
  line _ _ h := get_old _ h
  table := htb
  lines s i o at' hs hf := by
    obtain ⟨h1, h2, h3, h4⟩ := hi.out s i o at' hs
    refine ⟨fun hm => ?_, ⟨at', get_old _ hs⟩, fun c hc => ?_⟩
    · obtain ⟨f, hf', rfl⟩ := List.mem_map.mp hm
      rcases hfr f hf' with h | h
      · exact hf h
      · exact absurd (lt_of_get hs) (Nat.not_lt.mpr h)
    · have : c ∈ w.table := by rcases hc with rfl | rfl <;> assumption
      obtain ⟨sl, hc'⟩ := hi.tab c this
      rw [hc', get_old _ hc']

theorem Later.call {w : World} (hi : Inv w) (args : List Addr) : Later w (w.call args) := by
  unfold World.call
  dsimp only
  split
  · refine Later.grow hi _ (by simp +contextual) fun f hf => ?_
    rcases List.mem_cons.mp hf with rfl | hf
    · exact Or.inr (Nat.le_refl _)
    · exact Or.inl (List.mem_map_of_mem hf)
  · exact Later.grow hi _ (by simp +contextual) fun f hf => Or.inl (List.mem_map_of_mem hf)

theorem Later.assign {w : World} (hi : Inv w) (k n : Nat) : Later w (w.assign k n) := by
  unfold World.assign
  split
  · exact Later.refl _
  · rename_i s held fs hfs
    split
    · rename_i i o at' hs
      split
      · rename_i sl ho
        have hne : ∀ (a : Nat) (x : Obj), w.heap[a]? = some x → a ≠ o →
            ((w.heap.set o (.lines (sl.filter (fun x => x.1 != k) ++ [(k, w.heap.length + 1)]))) ++
              [Obj.series n, .line w.heap.length])[a]? = some x := by
          intro a x ha hx
          refine get_old _ ?_
          rw [List.getElem?_set_ne (Ne.symm hx)]
          exact ha
        have hos := (hi.out s i o at' hs).1
        refine ⟨fun a m h => hne _ _ h (by rintro rfl; rw [ho] at h; cases h),
          fun a m h => hne _ _ h (by rintro rfl; rw [ho] at h; cases h), fun _ h => h, fun t i' o' a' ht hf => ?_⟩
        obtain ⟨h1, h2, h3, h4⟩ := hi.out t i' o' a' ht
        have hts : t ≠ s := by rintro rfl; rw [hfs] at hf; simp at hf
        refine ⟨hf, ⟨a', hne _ _ ht (by rintro rfl; rw [ho] at ht; cases ht)⟩, fun c hc => ?_⟩
        have hct : c ∈ w.table := by rcases hc with rfl | rfl <;> assumption
        obtain ⟨sl', hc'⟩ := hi.tab c hct
        rw [hc']
        refine hne _ _ hc' fun hco => ?_
        have h5 : c = s + 1 := by rw [hco, hos]
        have h6 : c = t + 1 ∨ c = t + 2 := by
          rcases hc with rfl | rfl
          · exact h2
          · exact Or.inl h1
        rcases h6 with h6 | h6
        · exact hts (Nat.succ.inj (h6.symm.trans h5))
        · have h7 : s = t + 1 := Nat.succ.inj (h5.symm.trans h6)
          have : s ∈ w.table := by rw [h7, ← h1]; exact h4
          obtain ⟨sl'', hs''⟩ := hi.tab s this
          rw [hs] at hs''; cases hs''
      · exact Later.refl _
    · exact Later.refl _

theorem Later.store {w : World} (hi : Inv w) (j : Nat) : Later w (w.store j) := by
  unfold World.store
  split
  · exact Later.refl _
  · rename_i s held fs hfs
    split
    · rename_i r i o at' hr hs
      have hne : ∀ (a : Nat) (x : Obj), w.heap[a]? = some x → a ≠ s →
          (w.heap.set s (.ind i o (r :: at')))[a]? = some x := by
        intro a x ha hx
        rw [List.getElem?_set_ne (Ne.symm hx)]
        exact ha
      refine ⟨fun a m h => hne _ _ h (by rintro rfl; rw [hs] at h; cases h),
        fun a m h => hne _ _ h (by rintro rfl; rw [hs] at h; cases h), fun _ h => h, fun t i' o' a' ht hf => ?_⟩
      obtain ⟨h1, h2, h3, h4⟩ := hi.out t i' o' a' ht
      refine ⟨hf, ⟨a', hne _ _ ht (by rintro rfl; rw [hfs] at hf; simp at hf)⟩, fun c hc => ?_⟩
      have hct : c ∈ w.table := by rcases hc with rfl | rfl <;> assumption
      obtain ⟨sl', hc'⟩ := hi.tab c hct
      rw [hc']
      exact hne _ _ hc' (by rintro rfl; rw [hs] at hc'; cases hc')
    · exact Later.refl _

/-- as long as the frames are among those before, nothing else matters -/
theorem Later.frames {w : World} {st fr vs} (hfr : ∀ f ∈ fr, f.1 ∈ w.frames.map Prod.fst) :
    Later w ⟨w.heap, w.table, st, fr, vs⟩ where
  series _ _ h := h
  line _ _ h := h
  table _ h := h
  lines s i o at' hs hf := by
    refine ⟨fun hm => ?_, ⟨at', hs⟩, fun c hc => rfl⟩
    obtain ⟨f, hf', rfl⟩ := List.mem_map.mp hm
    exact hf (hfr f hf')

theorem Later.step {w : World} (hi : Inv w) (e : Ev) : Later w (w.step e) := by
  cases e with
  | series n => exact Later.grow hi _ (fun _ h => h) fun f hf => Or.inl (List.mem_map_of_mem hf)
  | call args => exact Later.call hi args
  | assign k n => exact Later.assign hi k n
  | store i => exact Later.store hi i
  | ret =>
    show Later w w.ret
    unfold World.ret
    split
    · exact Later.refl _
    · exact Later.frames (by simp)
    · rename_i s _ t held fs hfs
      refine Later.frames fun f hf => ?_
      rw [hfs]
      rcases List.mem_cons.mp hf with rfl | hf
      · simp
      · simp only [List.map_cons, List.mem_cons]
        exact Or.inr (Or.inr (List.mem_map_of_mem hf))
  | raise => exact Later.frames fun f hf => List.mem_map_of_mem (List.mem_of_mem_tail hf)
  | drop i => exact Later.frames fun f hf => List.mem_map_of_mem hf

theorem Later.fold {w : World} (hi : Inv w) : ∀ h : List Ev, Later w (h.foldl World.step w)
  | [] => Later.refl w
  | e :: h => (Later.step hi e).trans (Later.fold (hi.step e) h)

theorem run_append (h h' : List Ev) : run (h ++ h') = h'.foldl World.step (run h) := List.foldl_append

/-- a call which ended is not running any more -/
theorem ended {w : World} (hi : Inv w) {s : Addr} {held} {fs} (hf : w.frames = (s, held) :: fs) {e : Ev} (he : e = .ret ∨ e = .raise) :
    s ∉ (w.step e).frames.map Prod.fst ∧ (w.step e).heap = w.heap := by
  have h1 := hi.nodup
  rw [hf] at h1
  simp only [List.map_cons, List.nodup_cons] at h1
  rcases he with rfl | rfl
  · show s ∉ w.ret.frames.map Prod.fst ∧ w.ret.heap = w.heap
    unfold World.ret
    rw [hf]
    cases fs with
    | nil => simp
    | cons f fs => exact ⟨by simpa using h1.1, rfl⟩
  · refine ⟨?_, rfl⟩
    show s ∉ w.frames.tail.map Prod.fst
    rw [hf]; exact h1.1

/-- **C109** (violated as stated: what the user cannot reach any more is released): take any history, and in it any call which
ends, with or without an exception.  Whatever happens later (the user may delete all variables), the bars of everything the call
assigned to its outputs are kept, and so is the data it was given. -/
theorem C109_not_released (h h' : List Ev) {s : Addr} {held : List Addr} {fs : List (Addr × List Addr)}
    (hf : (run h).frames = (s, held) :: fs) {e : Ev} (he : e = .ret ∨ e = .raise) {i o : Addr} {at' : List Addr}
    (hs : (run h).heap[s]? = some (.ind i o at')) {c : Addr} (hc : c = i ∨ c = o) {sl : List (Nat × Addr)}
    (hsl : (run h).heap[c]? = some (.lines sl)) {x : Nat × Addr} (hx : x ∈ sl) {b : Addr}
    (hb : (run h).heap[x.2]? = some (.line b)) {n : Nat} (hn : (run h).heap[b]? = some (.series n)) :
    (run (h ++ e :: h')).Kept b ∧ (run (h ++ e :: h')).heap[b]? = some (.series n) := by
  have hi := inv_run h
  obtain ⟨h1, h2⟩ := ended hi hf he
  have hl := Later.fold (hi.step e) h'
  rw [show h ++ e :: h' = h ++ (e :: h') from rfl, run_append, List.foldl_cons]
  have hct : c ∈ ((run h).step e).table := by
    refine (Later.step hi e).table c ?_
    obtain ⟨_, _, h3, h4⟩ := hi.out s i o at' hs
    rcases hc with rfl | rfl <;> assumption
  obtain ⟨_, _, g3⟩ := hl.lines s i o at' (by rw [h2]; exact hs) h1
  refine ⟨?_, hl.series b n (by rw [h2]; exact hn)⟩
  refine Reach.step (Reach.step (a := c) (Reach.root ?_) ((g3 c hc).trans (by rw [h2]; exact hsl)) (b := x.2) ?_)
    (hl.line x.2 b (by rw [h2]; exact hb)) (by simp [Obj.refs])
  · unfold World.roots
    have := hl.table c hct
    simp [this]
  · exact List.mem_map_of_mem hx

/-- **C109**: with every call at least one more object is kept for ever. -/
theorem C109_grows (h : List Ev) : ∃ L : List Addr, L.Nodup ∧ h.countP Ev.isCall ≤ L.length ∧
    ∀ a ∈ L, (run h).Kept a ∧ ∃ sl, (run h).heap[a]? = some (.lines sl) := by
  refine ⟨(run h).table, (inv_run h).tnodup, ?_, fun a ha => ⟨Reach.root (by unfold World.roots; simp [ha]), (inv_run h).tab a ha⟩⟩
  have key : ∀ (h : List Ev) (w : World), w.table.length + h.countP Ev.isCall ≤ (h.foldl World.step w).table.length := by
    intro h
    induction h with
    | nil => intro w; simp
    | cons e h ih =>
      intro w
      refine Nat.le_trans ?_ (ih (w.step e))
      rw [List.countP_cons]
      have : w.table.length + (if e.isCall = true then 1 else 0) ≤ (w.step e).table.length := by
        cases e with
        | call args =>
          show w.table.length + 1 ≤ (w.call args).table.length
          unfold World.call; dsimp only
          split <;> simp
        | assign k n =>
          show w.table.length + 0 ≤ (w.assign k n).table.length
          have : (w.assign k n).table = w.table := by
            unfold World.assign
            split
            · rfl
            · split
              · split <;> rfl
              · rfl
          rw [this]; exact Nat.le_refl _
        | store i =>
          show w.table.length + 0 ≤ (w.store i).table.length
          have : (w.store i).table = w.table := by
            unfold World.store
            split
            · rfl
            · split <;> rfl
          rw [this]; exact Nat.le_refl _
        | ret =>
          show w.table.length + 0 ≤ w.ret.table.length
          have : w.ret.table = w.table := by
            unfold World.ret
            split <;> rfl
          rw [this]; exact Nat.le_refl _
        | series n => exact Nat.le_refl _
        | raise => exact Nat.le_refl _
        | drop i => exact Nat.le_refl _
      omega
  have h0 := key h World.start
  rwa [show World.start.table.length = 0 from rfl, Nat.zero_add] at h0

/-- without exceptions the call stack is the running calls -/
theorem stack_eq (h : List Ev) (hr : Ev.raise ∉ h) : (run h).stack = (run h).frames.map Prod.fst := by
  have key : ∀ (h : List Ev), Ev.raise ∉ h → ∀ w : World, w.stack = w.frames.map Prod.fst →
      (h.foldl World.step w).stack = (h.foldl World.step w).frames.map Prod.fst := by
    intro h
    induction h with
    | nil => intro _ w hw; exact hw
    | cons e h ih =>
      intro hr w hw
      refine ih (fun hm => hr (List.mem_cons_of_mem _ hm)) _ ?_
      cases e with
      | raise => exact absurd (List.mem_cons_self) hr
      | series n => exact hw
      | drop i => exact hw
      | call args =>
        show (w.call args).stack = _
        unfold World.step World.call; dsimp only
        split
        · simp [hw]
        · exact hw
      | assign k n =>
        show (w.assign k n).stack = (w.assign k n).frames.map _
        unfold World.assign
        split
        · exact hw
        · split
          · split <;> exact hw
          · exact hw
      | store i =>
        show (w.store i).stack = (w.store i).frames.map _
        unfold World.store
        split
        · exact hw
        · split <;> exact hw
      | ret =>
        show w.ret.stack = w.ret.frames.map _
        unfold World.ret
        split
        · exact hw
        · rename_i hf; rw [hw, hf]; rfl
        · rename_i hf; rw [hw, hf]; rfl
  exact key h hr World.start rfl

/-- **C109** (what of it holds): an indicator object itself is released as soon as the user cannot reach it, if no call raised an
exception and none is running. -/
theorem C109_partial (h : List Ev) (hr : Ev.raise ∉ h) (hf : (run h).frames = []) {a i o : Addr} {at' : List Addr}
    (ha : (run h).heap[a]? = some (.ind i o at')) (hk : (run h).Kept a) : (run h).Held a := by
  have hi := inv_run h
  have hst := stack_eq h hr
  rw [hf] at hst
  have key : ∀ b, (run h).Kept b → (run h).Held b ∨ ∃ x, (run h).heap[b]? = some x ∧ ∀ i o at', x ≠ .ind i o at' := by
    intro b hb
    induction hb with
    | root hm =>
      unfold World.roots at hm
      rw [hf, hst] at hm
      simp only [List.map_nil, List.append_nil, List.flatMap_nil, List.mem_append] at hm
      rcases hm with hm | hm
      · obtain ⟨sl, hsl⟩ := hi.tab _ hm
        exact Or.inr ⟨_, hsl, by simp⟩
      · exact Or.inl (Reach.root hm)
    | @step a b x _ hg hm ih =>
      rcases ih with ih | ⟨x', hx, hn⟩
      · exact Or.inl (Reach.step ih hg hm)
      · rw [hg] at hx
        cases hx
        cases x with
        | series n => cases hm
        | line s =>
          simp only [Obj.refs, List.mem_singleton] at hm
          subst hm
          obtain ⟨n, hn⟩ := hi.ln _ _ hg
          exact Or.inr ⟨_, hn, by simp⟩
        | lines sl =>
          obtain ⟨y, hy, rfl⟩ := List.mem_map.mp hm
          obtain ⟨s, hs⟩ := hi.sl _ _ hg y hy
          exact Or.inr ⟨_, hs, by simp⟩
        | ind i o at' => exact absurd rfl (hn i o at')
  rcases key a hk with h | ⟨x, hx, hn⟩
  · exact h
  · rw [ha] at hx; cases hx
    exact absurd rfl (hn i o at')

/-- **C109** (nothing in use is released): the result of a call is given to the user, who can reach through it the object, its
inputs, its outputs, what its initialiser stored, and the bars. -/
theorem C109_result (h : List Ev) {s : Addr} {held : List Addr} (hf : (run h).frames = [(s, held)]) {i o : Addr}
    {at' : List Addr} (hs : (run h).heap[s]? = some (.ind i o at')) :
    (run (h ++ [.ret])).Held s ∧ (∀ a ∈ at', (run (h ++ [.ret])).Held a) ∧
      ∀ c, c = i ∨ c = o → ∀ sl, (run h).heap[c]? = some (.lines sl) → ∀ x ∈ sl, ∀ b, (run h).heap[x.2]? = some (.line b) →
        (run (h ++ [.ret])).Held b := by
  have hw : run (h ++ [.ret]) = (run h).ret := by rw [run_append]; rfl
  have hv : (run (h ++ [.ret])).vars = s :: (run h).vars ∧ (run (h ++ [.ret])).heap = (run h).heap := by
    rw [hw]
    unfold World.ret
    rw [hf]
    exact ⟨rfl, rfl⟩
  have h0 : (run (h ++ [.ret])).Held s := Reach.root (by rw [hv.1]; exact List.mem_cons_self)
  refine ⟨h0, fun a ha => Reach.step h0 (by rw [hv.2]; exact hs) ?_, ?_⟩
  · exact List.mem_cons_of_mem _ (List.mem_cons_of_mem _ ha)
  · intro c hc sl hsl x hx b hb
    have h1 : (run (h ++ [.ret])).Held c := Reach.step h0 (by rw [hv.2]; exact hs) (by
      rcases hc with rfl | rfl
      · exact List.mem_cons_self
      · exact List.mem_cons_of_mem _ List.mem_cons_self)
    exact Reach.step (Reach.step h1 (by rw [hv.2]; exact hsl) (List.mem_map_of_mem hx)) (by rw [hv.2]; exact hb)
      (List.mem_cons_self)

/-- **C109** The result of a call made by an initialiser is given to this initialiser, and is kept while it runs. -/
theorem C109_nested_result (h : List Ev) {s t : Addr} {held held' : List Addr} {fs : List (Addr × List Addr)}
    (hf : (run h).frames = (s, held) :: (t, held') :: fs) :
    (run (h ++ [.ret])).frames = (t, s :: held') :: fs ∧ (run (h ++ [.ret])).Kept s := by
  have hw : run (h ++ [.ret]) = (run h).ret := by rw [run_append]; rfl
  have hv : (run (h ++ [.ret])).frames = (t, s :: held') :: fs := by
    rw [hw]
    unfold World.ret
    rw [hf]
  refine ⟨hv, Reach.root ?_⟩
  unfold World.roots
  rw [hv]
  simp

/-- what is below the running calls on the call stack stays there -/
theorem stack_below (st : List Addr) (h : List Ev) (w : World) (hw : ∃ p, w.stack = p ++ st ∧ w.frames.length ≤ p.length) :
    ∃ p, (h.foldl World.step w).stack = p ++ st ∧ (h.foldl World.step w).frames.length ≤ p.length := by
  induction h generalizing w with
  | nil => exact hw
  | cons e h ih =>
    refine ih _ ?_
    obtain ⟨p, h1, h2⟩ := hw
    cases e with
    | raise => exact ⟨p, h1, Nat.le_trans (by simp [World.step, World.raise]) h2⟩
    | series n => exact ⟨p, h1, h2⟩
    | drop i => exact ⟨p, h1, h2⟩
    | call args =>
      unfold World.step World.call; dsimp only
      split
      · exact ⟨w.heap.length :: p, by rw [h1]; rfl, Nat.succ_le_succ h2⟩
      · exact ⟨p, h1, h2⟩
    | assign k n =>
      unfold World.step World.assign; dsimp only
      split
      · exact ⟨p, h1, h2⟩
      · split
        · split <;> exact ⟨p, h1, h2⟩
        · exact ⟨p, h1, h2⟩
    | store i =>
      unfold World.step World.store; dsimp only
      split
      · exact ⟨p, h1, h2⟩
      · split <;> exact ⟨p, h1, h2⟩
    | ret =>
      unfold World.step World.ret; dsimp only
      split
      · exact ⟨p, h1, h2⟩
      · rename_i s held hf
        rw [hf] at h2
        cases p with
        | nil => simp at h2
        | cons q p => exact ⟨p, by rw [h1]; rfl, by simp⟩
      · rename_i s held t held' fs hf
        rw [hf] at h2
        cases p with
        | nil => simp at h2
        | cons q p => exact ⟨p, by rw [h1]; rfl, by simpa using h2⟩

/-- **C109** (violated for calls which raise): the indicator object of a call by the user which ends with an exception is kept for
ever, although the user never got it: it stays on the call stack.  Missing in the statement: which of the objects of nested calls
stay if an initialiser catches the exception. -/
theorem C109_raised (h h' : List Ev) {s : Addr} {held : List Addr} (hf : (run h).frames = [(s, held)])
    (ht : (run h).stack.head? = some s) : (run (h ++ .raise :: h')).Kept s := by
  rw [show h ++ Ev.raise :: h' = h ++ (Ev.raise :: h') from rfl, run_append, List.foldl_cons]
  obtain ⟨p, h1, _⟩ := stack_below (run h).stack h' ((run h).step .raise) ⟨[], rfl, by
    show (run h).frames.tail.length ≤ 0
    rw [hf]
    exact Nat.le_refl _⟩
  refine Reach.root ?_
  unfold World.roots
  rw [h1]
  have : s ∈ (run h).stack := by
    cases hs : (run h).stack with
    | nil => rw [hs] at ht; cases ht
    | cons a l => rw [hs] at ht; cases ht; exact List.mem_cons_self
  simp [this]

/-- two nested calls on a series of 1000 bars; then the user deletes everything -/
def exLife : List Ev :=
  [.series 1000, .call [0], .call [0], .assign 0 1000, .ret, .store 0, .assign 0 1000]

example : (run exLife).frames = [(1, [5])] ∧ (run exLife).heap[1]? = some (.ind 3 2 [5]) ∧
    (run exLife).heap[2]? = some (.lines [(0, 12)]) ∧ (run exLife).heap[12]? = some (.line 11) ∧
    (run exLife).heap[11]? = some (.series 1000) := by decide

/-- afterwards the user holds nothing, and 3000 bars are kept -/
example : (run (exLife ++ [.ret, .drop 0, .drop 0])).vars = [] ∧
    ∀ b ∈ [0, 9, 11], (run (exLife ++ [.ret, .drop 0, .drop 0])).Kept b := by
  refine ⟨by decide, ?_⟩
  intro b hb
  have e : (run (exLife ++ [.ret, .drop 0, .drop 0])).heap = (run exLife).heap := by decide
  simp only [List.mem_cons, List.not_mem_nil, or_false] at hb
  rcases hb with rfl | rfl | rfl
  · exact (C109_not_released exLife [.drop 0, .drop 0] (s := 1) (held := [5]) (fs := []) (by decide) (Or.inl rfl) (i := 3) (o := 2)
      (at' := [5]) (by decide) (c := 3) (Or.inl rfl) (sl := [(0, 4)]) (by decide) (x := (0, 4)) (by simp) (by decide) (n := 1000)
      (by decide)).1
  · refine Reach.step (a := 10) (Reach.step (a := 6) (Reach.root (by decide)) (o := .lines [(0, 10)]) (by decide) (by decide))
      (o := .line 9) (by decide) (by decide)
  · exact (C109_not_released exLife [.drop 0, .drop 0] (s := 1) (held := [5]) (fs := []) (by decide) (Or.inl rfl) (i := 3) (o := 2)
      (at' := [5]) (by decide) (c := 2) (Or.inr rfl) (sl := [(0, 12)]) (by decide) (x := (0, 12)) (by simp) (by decide) (n := 1000)
      (by decide)).1

/-- the indicator of this history is released, while the user holds its variable it is not -/
example : (run (exLife ++ [.ret])).Held 1 ∧ ¬ (run (exLife ++ [.ret, .drop 0])).Held 1 := by
  constructor
  · exact Reach.root (by decide)
  · intro hh
    have key : ∀ b, Reach (run (exLife ++ [.ret, .drop 0])).heap (run (exLife ++ [.ret, .drop 0])).vars b → b = 0 := by
      intro b hb
      induction hb with
      | root hm =>
        rw [show (run (exLife ++ [.ret, .drop 0])).vars = [0] by decide] at hm
        simpa using hm
      | step _ hg hm ih =>
        subst ih
        rw [show (run (exLife ++ [.ret, .drop 0])).heap[0]? = some (.series 1000) by decide] at hg
        cases hg; cases hm
    exact absurd (key 1 hh) (by decide)

/-- a call which raises at once, and one after it; the object of the first stays -/
example : (run [.series 5, .call [0]]).frames = [(1, [])] ∧ (run [.series 5, .call [0]]).stack.head? = some 1 ∧
    (run [.series 5, .call [0], .raise, .call [0], .ret, .drop 0, .drop 0]).vars = [] ∧
    (run [.series 5, .call [0], .raise, .call [0], .ret, .drop 0, .drop 0]).stack = [1] := by decide

example : (run (exLife ++ [.ret])).Held 0 ∧ (run (exLife ++ [.ret])).Held 5 :=
  ⟨(C109_result exLife (s := 1) (held := [5]) (by decide) (i := 3) (o := 2) (at' := [5]) (by decide)).2.2 3 (.inl rfl) [(0, 4)]
      (by decide) (0, 4) (by simp) 0 (by decide),
    (C109_result exLife (s := 1) (held := [5]) (by decide) (i := 3) (o := 2) (at' := [5]) (by decide)).2.1 5 (by simp)⟩

example : (run [.series 5, .call [0], .call [0]]).frames = (5, []) :: (1, []) :: [] := by decide

end Bta.Life
