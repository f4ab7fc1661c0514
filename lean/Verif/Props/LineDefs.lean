import Verif.Meta.LineDefs

/-!
# Definition of inputs and outputs (C54, C55)
-/

set_option linter.unusedSectionVars false
set_option linter.unusedVariables false

namespace Bta.Meta

open Py

/-! ## Lemmas -/

theorem mem_keepLast {x : String} {l : List String} : x ∈ keepLast l ↔ x ∈ l := by
  simp [keepLast, mem_fromkeys]

theorem nodup_keepLast (l : List String) : (keepLast l).Nodup := by
  unfold keepLast
  exact List.nodup_reverse.2 (nodup_fromkeys _)

theorem keepLast_eq {l : List String} (h : l.Nodup) : keepLast l = l := by
  unfold keepLast
  rw [fromkeys_eq (List.nodup_reverse.2 h), List.reverse_reverse]

theorem keepLast_append {a b : List String} (ha : a.Nodup) (hb : b.Nodup) :
    keepLast (a ++ b) = a.filter (fun x => decide (x ∉ b)) ++ b := by
  unfold keepLast
  rw [List.reverse_append, fromkeys_append, fromkeys_eq (List.nodup_reverse.2 hb), fromkeys_eq (List.nodup_reverse.2 ha),
    List.reverse_append, List.reverse_reverse, ← List.filter_reverse, List.reverse_reverse]
  simp

theorem mem_vals_setdefault {m : Dict String String} {a b x : String} (h : x ∈ (setdefault m a b).map Prod.snd) :
    x ∈ m.map Prod.snd ∨ x = b := by
  unfold setdefault at h
  cases hg : get? m a with
  | some v => rw [hg] at h; exact Or.inl h
  | none =>
    rw [hg] at h
    simp only [List.map_append, List.map_cons, List.map_nil, List.mem_append, List.mem_singleton] at h
    exact h

theorem mem_vals_autoMap {names : List String} {m : Dict String String} {pairs : List (String × String)} {x : String}
    (h : x ∈ (autoMap names m pairs).map Prod.snd) : x ∈ m.map Prod.snd ∨ (x ∉ names ∧ x ∈ pairs.map Prod.snd) := by
  induction pairs generalizing m with
  | nil => exact Or.inl h
  | cons p ps ih =>
    have h' : x ∈ (autoMap names (if p.2 ∈ names then m else setdefault m p.1 p.2) ps).map Prod.snd := h
    rcases ih h' with h1 | h1
    · by_cases hp : p.2 ∈ names
      · rw [if_pos hp] at h1; exact Or.inl h1
      · rw [if_neg hp] at h1
        rcases mem_vals_setdefault h1 with h2 | rfl
        · exact Or.inl h2
        · exact Or.inr ⟨hp, by simp⟩
    · exact Or.inr ⟨h1.1, by simp [h1.2]⟩

theorem defMaps_names (ss : List String) : defMaps (ss.map LDef.name) = [] := by
  unfold defMaps
  induction ss with
  | nil => rfl
  | cons s ss ih => simpa using ih

theorem defNames_names (ss : List String) : defNames (ss.map LDef.name) = ss := by
  unfold defNames
  induction ss with
  | nil => rfl
  | cons s ss ih => simp [ih]

/-! ## C54 -/

/-- C54: the lines of a class never contain a name twice, and no name which the class remaps (all hierarchies, all
definitions). -/
theorem C54_nodup (bases : List (List String)) (defs : List LDef) (ext : List String) :
    (genLines bases defs ext).lines.Nodup ∧
      ∀ new old, (new, old) ∈ (genLines bases defs ext).mappings → old ∉ (genLines bases defs ext).lines := by
  unfold genLines
  refine ⟨(nodup_keepLast _).filter _, ?_⟩
  intro new old hm hl
  simp only [List.mem_filter, decide_eq_true_eq] at hl
  exact hl.2 (List.mem_map.2 ⟨_, hm, rfl⟩)

/-- C54: a definition by plain names (each once) replaces the lines of the bases: the lines are exactly the names, in
their order, whatever the base classes define. -/
theorem C54_redefine (bases : List (List String)) (names ext : List String) (hne : names ≠ []) (hn : names.Nodup) :
    (genLines bases (names.map LDef.name) ext).lines = names := by
  unfold genLines
  simp only [defNames_names, defMaps_names, if_neg hne]
  rw [keepLast_eq hn, List.filter_eq_self]
  intro x hx
  simp only [decide_eq_true_eq]
  intro hm
  rcases mem_vals_autoMap hm with h | ⟨h, _⟩
  · simp at h
  · exact h hx

/-- C54: a definition with remappings: the lines are the new names, in their order, without those which the definition
itself declares to be old names. -/
theorem C54_remap (bases : List (List String)) (defs : List LDef) (ext : List String) (hne : defNames defs ≠ [])
    (hn : (defNames defs).Nodup) :
    (genLines bases defs ext).lines = (defNames defs).filter (fun x => decide (x ∉ (defMaps defs).map Prod.snd)) := by
  unfold genLines
  simp only [if_neg hne]
  rw [keepLast_eq hn]
  apply List.filter_congr
  intro x hx
  have hsub : x ∈ (defMaps defs).map Prod.snd → x ∈ (autoMap (defNames defs) (defMaps defs) ((defNames defs).zip bases.flatten)).map Prod.snd := by
    have mono : ∀ (ps : List (String × String)) (m : Dict String String) (x : String), x ∈ m.map Prod.snd →
        x ∈ (autoMap (defNames defs) m ps).map Prod.snd := by
      intro ps
      induction ps with
      | nil => intro m x h; exact h
      | cons p ps ih =>
        intro m x h
        refine ih _ x ?_
        beta_reduce
        by_cases hp : p.2 ∈ defNames defs
        · rw [if_pos hp]; exact h
        · rw [if_neg hp]
          unfold setdefault
          cases get? m p.1 with
          | some _ => exact h
          | none => simp only [List.map_append, List.mem_append]; exact Or.inl h
    exact mono _ _ x
  have hiff : x ∈ (autoMap (defNames defs) (defMaps defs) ((defNames defs).zip bases.flatten)).map Prod.snd ↔
      x ∈ (defMaps defs).map Prod.snd := by
    constructor
    · intro h
      rcases mem_vals_autoMap h with h1 | ⟨h1, _⟩
      · exact h1
      · exact absurd hx h1
    · exact hsub
  simp only [hiff]

/-- C54: an extension appends to the lines of the bases; a repeated name keeps its last place. -/
theorem C54_extend (bases : List (List String)) (ext : List String) (hb : bases.flatten.Nodup) (he : ext.Nodup) :
    (genLines bases [] ext).lines = bases.flatten.filter (fun x => decide (x ∉ ext)) ++ ext := by
  unfold genLines
  simp only [defNames, List.flatMap_nil, if_true, defMaps, List.foldl_nil, List.map_nil, List.not_mem_nil,
    not_false_eq_true, decide_true, List.filter_true]
  exact keepLast_append hb he

/-- C54: without any definition the lines are inherited. -/
theorem C54_inherit (base : List String) (h : base.Nodup) : (genLines [base] [] []).lines = base := by
  rw [C54_extend [base] [] (by simpa using h) (by simp)]
  simp

example : (genLines [["close"]] ([LDef.name "high", .name "low"]) []) = ⟨["high", "low"], [("high", "close")]⟩ := by
  decide +kernel
example : (genLines [["tr"]] [.map [("atr", "tr")], .name "x"] []).lines = ["atr", "x"] := by decide +kernel
example : (genLines [["a", "b", "c"]] [] ["d", "a"]).lines = ["b", "c", "d", "a"] := by decide +kernel

/-! ## C55 -/

variable {V : Type}

theorem get?_defMaps (defs : List LDef) (m0 : Dict String String) (x : String) :
    get? (defs.foldl (fun m d => match d with | .name _ => m | .map l => update m l) m0) x =
      (get? (defs.flatMap (fun d => match d with | .name _ => [] | .map l => l)).reverse x).or (get? m0 x) := by
  induction defs generalizing m0 with
  | nil => simp [get?]
  | cons d defs ih =>
    have happ : ∀ (a b : List (String × String)), get? (a ++ b) x = (get? a x).or (get? b x) := by
      intro a b
      induction a with
      | nil => simp [get?]
      | cons p a iha =>
        by_cases h : p.1 = x
        · simp [get?, h]
        · simp [get?, h, iha]
    simp only [List.foldl_cons, List.flatMap_cons, List.reverse_append, happ]
    rw [ih]
    cases d with
    | name n => simp [get?]
    | map l => rw [get?_update, Option.or_assoc]

theorem get?_autoMap (names : List String) (pairs : List (String × String)) (m : Dict String String) {x y : String}
    (h : get? m x = some y) : get? (autoMap names m pairs) x = some y := by
  unfold autoMap
  induction pairs generalizing m with
  | nil => exact h
  | cons p pairs ih =>
    refine ih _ ?_
    beta_reduce
    split
    · exact h
    · rw [get?_setdefault]
      by_cases hp : p.1 = x
      · subst hp; simp [h]
      · simp [hp, h]

/-- **C55** (partial: what is remembered, not what an access does with it, see `C55_late_binding`): every explicit remapping of the
definition is kept, whichever of its dictionaries it stands in; the last one counts if a new name occurs twice. -/
theorem C55_explicit_partial (bases : List (List String)) (defs : List LDef) (ext : List String) (new old : String)
    (h : get? (defs.flatMap (fun d => match d with | .name _ => [] | .map l => l)).reverse new = some old) :
    get? (genLines bases defs ext).mappings new = some old := by
  have h1 : get? (defMaps defs) new = some old := by
    have := get?_defMaps defs [] new
    rw [h] at this
    exact this
  unfold genLines
  dsimp only
  split
  · exact h1
  · exact get?_autoMap _ _ _ h1

/-- Non-vacuity: two dictionaries with a name in between. -/
example : get? ([LDef.map [("dif", "macd")], .name "extra", .map [("dea", "signal")]].flatMap
    (fun d => match d with | .name _ => [] | .map l => l)).reverse "dif" = some "macd" := by decide +kernel

/-- C55 holds for one remapping: assigning to the old name sets the new line and reading the old name reads the new
line, whatever is done with it. -/
theorem C55_single_partial (g : LGen) (new old : String) (hm : g.mappings = [(new, old)]) (hne : new ≠ old)
    (st : Dict String V) (v : V) :
    (∃ st', g.setattr st old v = some st' ∧ get? st' new = some v ∧ ∀ x, x ≠ new → get? st' x = get? st x) ∧
      g.getattr st old = g.getattr st new := by
  have h1 : g.resolve old = some new := by simp [LGen.resolve, hm, keys, hne]
  have h2 : g.resolve new = some new := by simp [LGen.resolve, hm, hne]
  refine ⟨⟨set st new v, by simp [LGen.setattr, h1], by simp [get?_set], ?_⟩, by simp [LGen.getattr, h1, h2]⟩
  intro x hx
  rw [get?_set, if_neg (fun e => hx e.symm)]

/-- C55, the automatic mapping used all over the library: a class with one line is subclassed with one line of another
name, and the code of the base class still works on the old name. -/
theorem C55_auto_partial (old new : String) (hne : new ≠ old) (st : Dict String V) (v : V) :
    (genLines [[old]] [.name new] []).lines = [new] ∧
    (∃ st', (genLines [[old]] [.name new] []).setattr st old v = some st' ∧ get? st' new = some v) ∧
      (genLines [[old]] [.name new] []).getattr st old = (genLines [[old]] [.name new] []).getattr st new := by
  have hg : genLines [[old]] [.name new] [] = ⟨[new], [(new, old)]⟩ := by
    have h1 : ¬ (old = new) := fun e => hne e.symm
    simp [genLines, defNames, defMaps, autoMap, h1, setdefault, get?, keepLast, fromkeys, hne]
  rw [hg]
  obtain ⟨⟨st', a, b, _⟩, c⟩ := C55_single_partial (V := V) ⟨[new], [(new, old)]⟩ new old rfl hne st v
  exact ⟨rfl, ⟨st', a, b⟩, c⟩

/-- C55 is violated as soon as two lines are remapped: *every* old name refers to the last new name.  So assigning the old
name of any other mapping sets the wrong line and leaves its own line as it was (all mappings with at least two
entries). -/
theorem C55_late_binding (g : LGen) (m : Dict String String) (new old newl oldl : String)
    (hm : g.mappings = m ++ [(newl, oldl)]) (hin : (new, old) ∈ m) (hne : new ≠ newl)
    (hok : newl ∉ g.mappings.map Prod.snd) (st : Dict String V) (v : V) :
    ∃ st', g.setattr st old v = some st' ∧ get? st' newl = some v ∧ get? st' new = get? st new := by
  have hold : old ∈ g.mappings.map Prod.snd := by
    rw [hm]
    simp only [List.map_append, List.mem_append]
    exact Or.inl (List.mem_map.2 ⟨_, hin, rfl⟩)
  have hk : (keys g.mappings).getLast? = some newl := by
    rw [hm]; simp [keys]
  have h1 : g.resolve old = some newl := by
    unfold LGen.resolve
    rw [if_pos hold, hk]
    simp only [if_neg hok]
  refine ⟨set st newl v, by simp [LGen.setattr, h1], by simp [get?_set], ?_⟩
  rw [get?_set, if_neg (fun e => hne e.symm)]

/-- Two remapped outputs: `outputs = {'x': 'a', 'y': 'b'}` on a base with outputs `a`, `b`.  What the base class assigns to
`a` ends in `y`. -/
example : (genLines [["a", "b"]] [.map [("x", "a"), ("y", "b")]] []) = ⟨["x", "y"], [("x", "a"), ("y", "b")]⟩ ∧
    (genLines [["a", "b"]] [.map [("x", "a"), ("y", "b")]] []).setattr ([] : Dict String Nat) "a" 1 = some [("y", 1)] := by
  decide +kernel

/-- The same happens without explicit mapping when two outputs are renamed by position. -/
example : (genLines [["plusdi", "minusdi"]] [.name "p", .name "m"] []).resolve "plusdi" = some "m" := by decide +kernel

/-- A line which was remapped in an intermediate class is not known as alias any more in the next class: the old name of
the old name is stored in an attribute of its own. -/
theorem C55_two_levels (a b c : String) (hab : a ≠ b) (hbc : b ≠ c) (hac : a ≠ c) :
    (genLines [(genLines [[a]] [.name b] []).lines] [.name c] []).resolve a = some a ∧
    (genLines [(genLines [[a]] [.name b] []).lines] [.name c] []).resolve b = some c := by
  have h1 : (genLines [[a]] [.name b] []).lines = [b] := C54_redefine [[a]] [b] [] (by simp) (by simp)
  rw [h1]
  have e : ¬ (b = c) := hbc
  have hg : genLines [[b]] [.name c] [] = ⟨[c], [(c, b)]⟩ := by
    simp [genLines, defNames, defMaps, autoMap, e, setdefault, get?, keepLast, fromkeys, Ne.symm hbc]
  rw [hg]
  constructor
  · simp [LGen.resolve, hab]
  · simp [LGen.resolve, keys, Ne.symm hbc]

end Bta.Meta
