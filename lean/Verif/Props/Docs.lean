import Verif.Meta.Docs
import Verif.Props.Params
import Verif.Props.Api

/-!
# C122: what the help text of a class says
-/

namespace Bta.Meta

open Py Docs

/-! ## Specification -/

/-- A text without its blanks: what is left is not touched by breaking lines anew. -/
def _root_.Spec.ink (D : Docs) (t : Text) : Text := t.filter (fun c => !D.blank c)

/-- What is known about python's functions on texts. -/
structure _root_.Spec.Python (D : Docs) : Prop where
  newline : D.blank '\n' = true
  space : D.blank ' ' = true
  paren : D.blank ')' = false
  brkNL : D.brk '\n' = true
  brk : ∀ c, D.brk c = true → D.blank c = true
  tabs : ∀ t, Spec.ink D (D.tabs t) = Spec.ink D t
  noTabs : ∀ t, '\t' ∉ t → D.tabs t = t
  split : ∀ t, (D.split t).flatten = t
  chunk : ∀ t, [] ∉ D.split t
  cut : ∀ n t, 0 < n → 0 < D.cut n t
  dedent : ∀ t, Spec.ink D (D.dedent t) = Spec.ink D t

/-- A title and names separated by commas; nothing if there are no names. -/
def _root_.Spec.listed (title : String) (l : List String) : Text :=
  if l = [] then [] else title.toList ++ ((l.map String.toList).intersperse ", ".toList).flatten

/-- How a default is shown: strings in quotes, classes of the library by their names. -/
def _root_.Spec.shown (D : Docs) (v : PyVal) (t : Text) : Prop :=
  (∀ s, v = .str s → t = '\'' :: s.toList ++ ['\'']) ∧ (∀ n, v = .cls n → t = n.toList) ∧
    ((∀ s, v ≠ .str s) → (∀ n, v ≠ .cls n) → t = D.fmt v)

/-- The line for a parameter whose default is shown as `t`. -/
def _root_.Spec.paramLine (n : String) (t : Text) : Text :=
  "  - ".toList ++ n.toList ++ " (default: ".toList ++ t ++ ")".toList

/-- The documentation of a parameter which is a string. -/
def _root_.Spec.paramDoc (info : Dict String PInfo) (n : String) : Text :=
  match get? info n with
  | some ⟨.str s, _⟩ => s.toList
  | _ => []

/-- All documentation of parameters consists of strings. -/
def _root_.Spec.Strings (info : Dict String PInfo) : Prop := ∀ n i, get? info n = some i → ∃ s, i.doc = .str s

/-- What the help text says, in order. -/
def _root_.Spec.helpText (D : Docs) (k : Klass) : Text :=
  k.doc.getD [] ++ Spec.listed "Aliases: " k.aliases ++ Spec.listed "Inputs: " k.inputs ++ Spec.listed "Outputs: " k.outputs
    ++ (if k.params = [] then [] else "Params:".toList
          ++ k.params.flatMap (fun p => Spec.paramLine p.1 (D.showVal p.2) ++ Spec.paramDoc k.info p.1))
    ++ (match k.talib with
        | none => []
        | some [] => []
        | some t => "TA-LIB (with compatibility flag \"_talib=True\"):".toList ++ t)

/-! ## Lemmas -/

section
variable {D : Docs}

theorem ink_append (a b : Text) : Spec.ink D (a ++ b) = Spec.ink D a ++ Spec.ink D b := List.filter_append ..

theorem ink_cons (c : Char) (b : Text) : Spec.ink D (c :: b) = Spec.ink D [c] ++ Spec.ink D b := ink_append [c] b

theorem ink_blank {t : Text} (h : t.all D.blank = true) : Spec.ink D t = [] := by
  rw [Spec.ink, List.filter_eq_nil_iff]
  intro c hc
  simpa using List.all_eq_true.1 h c hc

theorem takeFit_append (w : Nat) (cs : List Text) : ∀ n, (takeFit w n cs).1 ++ (takeFit w n cs).2 = cs := by
  induction cs with
  | nil => intro n; rfl
  | cons c cs ih =>
    intro n
    unfold takeFit
    split
    · simp [ih]
    · rfl

theorem takeFit_all (w : Nat) (cs : List Text) : ∀ n, n + cs.flatten.length ≤ w → takeFit w n cs = (cs, []) := by
  induction cs with
  | nil => intro n _; rfl
  | cons c cs ih =>
    intro n h
    simp only [List.flatten_cons, List.length_append] at h
    unfold takeFit
    rw [if_pos (by omega), ih _ (by omega)]

/-- what is dropped at the end of a line is blank -/
theorem closeLine_ink (l : List Text) : Spec.ink D (D.closeLine l).flatten = Spec.ink D l.flatten := by
  unfold closeLine
  cases h : l.getLast? with
  | none => rfl
  | some c =>
    simp only
    split
    · next hb =>
      have := List.dropLast_append_getLast? c h
      conv_rhs => rw [← this]
      rw [List.flatten_append, ink_append]
      simp [ink_blank hb]
    · rfl

/-- number of characters and chunks -/
def size (cs : List Text) : Nat := cs.flatten.length + cs.length

theorem size_append (a b : List Text) : size (a ++ b) = size a + size b := by
  simp only [size, List.flatten_append, List.length_append]; omega

theorem size_cons (a : Text) (b : List Text) : size (a :: b) = a.length + 1 + size b := by
  simp only [size, List.flatten_cons, List.length_append, List.length_cons]; omega

/-- cutting a word which is too long -/
theorem cutLong_spec (w : Nat) (cur rest : List Text) :
    (D.cutLong w cur rest).1.flatten ++ (D.cutLong w cur rest).2.flatten = cur.flatten ++ rest.flatten ∧
      size (D.cutLong w cur rest).2 ≤ size rest := by
  cases rest with
  | nil => exact ⟨rfl, Nat.le_refl _⟩
  | cons c t =>
    simp only [cutLong]
    split
    · refine ⟨?_, ?_⟩
      · simp only [List.flatten_append, List.flatten_cons, List.flatten_nil, List.append_nil, List.append_assoc]
        rw [← List.append_assoc (List.take _ _), List.take_append_drop]
      · simp only [size_cons, List.length_drop]
        omega
    · exact ⟨rfl, Nat.le_refl _⟩

/-- a line uses something up -/
theorem fill_spec (hD : Spec.Python D) {w : Nat} (hw : 0 < w) (c : Text) (cs : List Text) :
    let r := takeFit w 0 (c :: cs)
    let r2 := D.cutLong w r.1 r.2
    r2.1.flatten ++ r2.2.flatten = (c :: cs).flatten ∧ size r2.2 < size (c :: cs) := by
  intro r r2
  have ha : r.1 ++ r.2 = c :: cs := takeFit_append w (c :: cs) 0
  have hs : size r.1 + size r.2 = size (c :: cs) := by rw [← size_append, ha]
  obtain ⟨h1, h2⟩ := cutLong_spec (D := D) w r.1 r.2
  refine ⟨by rw [h1, ← List.flatten_append, ha], ?_⟩
  by_cases h : 0 + c.length ≤ w
  · have : r = (c :: (takeFit w (0 + c.length) cs).1, (takeFit w (0 + c.length) cs).2) := by
      show takeFit w 0 (c :: cs) = _
      rw [takeFit, if_pos h]
    have h3 : 0 < size r.1 := by rw [this, size_cons]; omega
    show size (D.cutLong w r.1 r.2).2 < _
    omega
  · have : r = ([], c :: cs) := by
      show takeFit w 0 (c :: cs) = _
      rw [takeFit, if_neg h]
    show size (D.cutLong w r.1 r.2).2 < _
    rw [this]
    simp only [cutLong]
    rw [if_pos (by omega)]
    have := hD.cut w c hw
    simp only [size_cons, List.length_drop, List.flatten_nil, List.length_nil, Nat.sub_zero]
    omega

theorem oneLine_spec (hD : Spec.Python D) {w : Nat} (hw : 0 < w) (first : Bool) (c : Text) (cs : List Text) :
    Spec.ink D (D.oneLine w first (c :: cs)).1.flatten ++ Spec.ink D (D.oneLine w first (c :: cs)).2.flatten
      = Spec.ink D (c :: cs).flatten ∧ size (D.oneLine w first (c :: cs)).2 < size (c :: cs) := by
  unfold oneLine
  simp only
  rw [closeLine_ink, ← ink_append, openLine]
  split
  · next hb =>
    have hink : Spec.ink D (c :: cs).flatten = Spec.ink D cs.flatten := by
      rw [List.flatten_cons, ink_append, ink_blank (Bool.and_eq_true _ _ ▸ hb).2, List.nil_append]
    rw [hink]
    cases cs with
    | nil => exact ⟨rfl, by rw [size_cons]; show 0 + 0 < _; omega⟩
    | cons d t =>
      obtain ⟨h1, h2⟩ := fill_spec hD hw d t
      refine ⟨by rw [h1], ?_⟩
      rw [size_cons c]
      exact Nat.lt_of_lt_of_le h2 (by omega)
  · obtain ⟨h1, h2⟩ := fill_spec hD hw c cs
    exact ⟨by rw [h1], h2⟩

theorem wrapLoop_ink (hD : Spec.Python D) {w : Nat} (hw : 0 < w) : ∀ (f : Nat) (first : Bool) (cs : List Text), size cs < f →
    Spec.ink D (D.wrapLoop w f first cs).flatten = Spec.ink D cs.flatten := by
  intro f
  induction f with
  | zero => intro _ _ h; omega
  | succ f ih =>
    intro first cs h
    cases cs with
    | nil => rfl
    | cons c cs =>
      obtain ⟨h1, h2⟩ := oneLine_spec hD hw first c cs
      unfold wrapLoop
      simp only
      split
      · next he =>
        rw [ih _ _ (by omega), ← h1]
        rw [List.isEmpty_iff.1 he]
        rfl
      · rw [List.flatten_cons, ink_append, ih _ _ (by omega), h1]

theorem wrap_ink (hD : Spec.Python D) {w : Nat} (hw : 0 < w) (t : Text) :
    Spec.ink D (D.wrap w t).flatten = Spec.ink D t := by
  unfold wrap
  simp only
  rw [wrapLoop_ink hD hw _ _ _ (by unfold size; omega), hD.split, hD.tabs]

theorem join_ink (hD : Spec.Python D) : ∀ l : List Text, Spec.ink D (join l) = Spec.ink D l.flatten
  | [] => rfl
  | [l] => by simp [join]
  | l :: m :: ls => by
    rw [join, ink_append, ink_cons, ink_blank (t := ['\n']) (by simp [hD.newline]), List.nil_append, join_ink hD (m :: ls),
      List.flatten_cons (l := l), ink_append]

theorem splitLines_ink (hD : Spec.Python D) : ∀ t : Text, Spec.ink D (D.splitLines t).flatten = Spec.ink D t
  | [] => rfl
  | c :: t => by
    have ih := splitLines_ink hD t
    rw [splitLines]
    split
    · next h =>
      rw [List.flatten_cons, List.nil_append, ih, ink_cons, ink_blank (t := [c]) (by simp [hD.brk c h]), List.nil_append]
    · cases h : D.splitLines t with
      | nil =>
        rw [h] at ih
        rw [ink_cons, ← ih]
        exact (List.append_nil _).symm
      | cons l ls =>
        rw [h] at ih
        simp only [List.flatten_cons, List.cons_append]
        rw [ink_cons, ink_cons c t, ← ih]
        rfl

theorem splitNL_ink (hD : Spec.Python D) : ∀ t : Text, Spec.ink D (splitNL t).flatten = Spec.ink D t
  | [] => rfl
  | c :: t => by
    have ih := splitNL_ink hD t
    rw [splitNL]
    split
    · next h =>
      rw [List.flatten_cons, List.nil_append, ih, ink_cons, ink_blank (t := [c]) (by simp [h, hD.newline]), List.nil_append]
    · cases h : splitNL t with
      | nil =>
        rw [h] at ih
        rw [ink_cons, ← ih]
        exact (List.append_nil _).symm
      | cons l ls =>
        rw [h] at ih
        simp only [List.flatten_cons, List.cons_append]
        rw [ink_cons, ink_cons c t, ← ih]
        rfl

theorem flatMap_wrap_ink (hD : Spec.Python D) {w : Nat} (hw : 0 < w) (l : List Text) :
    Spec.ink D (l.flatMap (D.wrap w)).flatten = Spec.ink D l.flatten := by
  induction l with
  | nil => rfl
  | cons a l ih => rw [List.flatMap_cons, List.flatten_append, ink_append, ih, wrap_ink hD hw, List.flatten_cons, ink_append]

theorem wrapIndent_ink (hD : Spec.Python D) (t : Text) (cr : Nat) : Spec.ink D (D.wrapIndent t cr) = Spec.ink D t := by
  unfold wrapIndent
  rw [ink_append, ink_blank (t := List.replicate cr '\n') (by
    rw [List.all_eq_true]; intro x hx; rw [(List.mem_replicate.1 hx).2]; exact hD.newline), List.nil_append, join_ink hD,
    flatMap_wrap_ink hD (by decide), splitLines_ink hD]

theorem processDocstring_ink (hD : Spec.Python D) (t : Text) : Spec.ink D (D.processDocstring t) = Spec.ink D t := by
  have h := splitNL_ink hD t
  unfold processDocstring
  cases hs : splitNL t with
  | nil => rw [hs] at h; exact h
  | cons l ls =>
    rw [hs] at h
    rw [join_ink hD, List.flatten_cons, ink_append, splitNL_ink hD, hD.dedent, join_ink hD, ← ink_append, ← h, List.flatten_cons]

theorem names_eq : ∀ l : List String, names l = ((l.map String.toList).intersperse ", ".toList).flatten
  | [] => rfl
  | [n] => by simp [names]
  | n :: m :: ns => by
    rw [names, names_eq (m :: ns)]
    simp

theorem section_ink (hD : Spec.Python D) (title : String) (l : List String) :
    Spec.ink D (D.section_ title l) = Spec.ink D (Spec.listed title l) := by
  unfold section_ Spec.listed
  by_cases h : l = []
  · subst h; rfl
  · rw [if_neg (by simpa using h), if_neg h, wrapIndent_ink hD, names_eq, List.cons_append, ink_cons,
      ink_blank (t := ['\n']) (by simp [hD.newline]), List.nil_append]


/-- the text for a parameter, after the line with its default -/
theorem paramText_eq (D : Docs) (info : Dict String PInfo) (p : String × PyVal) :
    ∃ t, D.paramText info p = '\n' :: Spec.paramLine p.1 (D.showVal p.2) ++ t ∧ (t = [] ∨ t.head? = some '\n') := by
  unfold paramText
  simp only
  split
  · next i _ =>
    split
    · exact ⟨"\n\n    ".toList ++ D.showDoc i.doc, by simp [Spec.paramLine], Or.inr rfl⟩
    · exact ⟨[], by simp [Spec.paramLine], Or.inl rfl⟩
  · exact ⟨[], by simp [Spec.paramLine], Or.inl rfl⟩

theorem paramText_ink (hD : Spec.Python D) {info : Dict String PInfo} (hs : Spec.Strings info)
    (p : String × PyVal) :
    Spec.ink D (D.paramText info p) = Spec.ink D (Spec.paramLine p.1 (D.showVal p.2) ++ Spec.paramDoc info p.1) := by
  have hn : Spec.ink D ['\n'] = [] := ink_blank (by simp [hD.newline])
  have hh : "\n  - ".toList ++ p.1.toList ++ " (default: ".toList ++ D.showVal p.2 ++ ")".toList
      = ['\n'] ++ Spec.paramLine p.1 (D.showVal p.2) := by simp [Spec.paramLine]
  unfold paramText Spec.paramDoc
  simp only [hh]
  cases h : get? info p.1 with
  | none => simp only [ink_append, hn, List.nil_append]; exact (List.append_nil _).symm
  | some i =>
    obtain ⟨s, hi⟩ := hs _ _ h
    obtain ⟨d, r⟩ := i
    simp only at hi
    subst hi
    simp only [showDoc]
    by_cases hb : s = ""
    · subst hb
      rw [if_neg (by simp [PyVal.truthy]), ink_append, hn, List.nil_append, ink_append]
      exact (List.append_nil _).symm
    · rw [if_pos (by simpa [PyVal.truthy] using hb), ink_append, ink_append, ink_append, hn, List.nil_append,
        ink_blank (t := "\n\n    ".toList) (by simp [hD.newline, hD.space]), List.append_nil, ink_append]

end

/-! ## Theorems -/

/-- **C122** The help text of a class says, blanks aside, its docstring, the aliases, the inputs, the outputs, every parameter with
its default and its documentation, and what is different with ta-lib compatibility: nothing is lost or added by breaking lines. -/
theorem C122_text (D : Docs) (hD : Spec.Python D) (k : Klass) (hs : Spec.Strings k.info) :
    Spec.ink D (D.help k) = Spec.ink D (Spec.helpText D k) := by
  unfold help Spec.helpText
  simp only [ink_append, processDocstring_ink hD, section_ink hD]
  congr 1
  · congr 1
    unfold paramsText
    by_cases h : k.params = []
    · rw [h]; rfl
    · rw [if_neg (by simpa using h), if_neg h, ink_append, ink_append, wrapIndent_ink hD]
      congr 1
      · show Spec.ink D ('\n' :: "Params:".toList) = _
        rw [ink_cons, ink_blank (t := ['\n']) (by simp [hD.newline]), List.nil_append]
      · induction k.params with
        | nil => rfl
        | cons p l ih =>
          rw [List.flatMap_cons, List.flatMap_cons, ink_append, ink_append, ih, wrapIndent_ink hD, paramText_ink hD hs]
  · unfold talibText
    rcases k.talib with _ | _ | ⟨c, t⟩
    · rfl
    · rfl
    · simp only [ink_append, wrapIndent_ink hD, processDocstring_ink hD]
      rw [ink_blank (t := "\n\n".toList) (by simp [hD.newline]), List.append_nil]


theorem infix_of_mem {α : Type} (f : α → Text) {l : List α} {a : α} (h : a ∈ l) : f a <:+: l.flatMap f := by
  obtain ⟨s, t, rfl⟩ := List.append_of_mem h
  exact ⟨s.flatMap f, t.flatMap f, by simp⟩

theorem ink_infix {D : Docs} {a b : Text} (h : a <:+: b) : Spec.ink D a <:+: Spec.ink D b := by
  obtain ⟨s, t, rfl⟩ := h
  exact ⟨Spec.ink D s, Spec.ink D t, by simp only [ink_append]⟩

theorem infix_names (d a i o p t : Text) : a ++ i ++ o <:+: d ++ a ++ i ++ o ++ p ++ t := ⟨d, p ++ t, by simp⟩

theorem infix_params (d a i o p x t : Text) : x <:+: d ++ a ++ i ++ o ++ (p ++ x) ++ t := ⟨d ++ a ++ i ++ o ++ p, t, by simp⟩

/-- **C122** Every parameter is in the help text, with its default and, following it, its documentation. -/
theorem C122_parameter (D : Docs) (hD : Spec.Python D) (k : Klass) (hs : Spec.Strings k.info) (n : String) (v : PyVal)
    (hp : (n, v) ∈ k.params) (t : Text) (ht : Spec.shown D v t) :
    Spec.ink D ("- ".toList ++ n.toList ++ " (default: ".toList ++ t ++ ")".toList ++ Spec.paramDoc k.info n)
      <:+: Spec.ink D (D.help k) := by
  have hv : D.showVal v = t := by
    obtain ⟨h1, h2, h3⟩ := ht
    cases v <;> simp only [showVal]
    case str s => rw [h1 s rfl]; simp
    case cls s => rw [h2 s rfl]
    all_goals exact (h3 (fun _ h => by cases h) (fun _ h => by cases h)).symm
  subst hv
  rw [C122_text D hD k hs]
  apply ink_infix
  have h1 := infix_of_mem (fun p : String × PyVal => Spec.paramLine p.1 (D.showVal p.2) ++ Spec.paramDoc k.info p.1) hp
  have h2 : "- ".toList ++ n.toList ++ " (default: ".toList ++ D.showVal v ++ ")".toList ++ Spec.paramDoc k.info n
      <:+: Spec.paramLine n (D.showVal v) ++ Spec.paramDoc k.info n :=
    ⟨"  ".toList, [], by simp [Spec.paramLine]⟩
  refine (h2.trans h1).trans ?_
  unfold Spec.helpText
  rw [if_neg (List.ne_nil_of_mem hp)]
  exact infix_params ..


/-- **C122** The names of a list follow its title, separated by commas. -/
theorem C122_names (D : Docs) (hD : Spec.Python D) (k : Klass) (hs : Spec.Strings k.info) :
    Spec.ink D (Spec.listed "Aliases: " k.aliases ++ Spec.listed "Inputs: " k.inputs ++ Spec.listed "Outputs: " k.outputs)
      <:+: Spec.ink D (D.help k) := by
  rw [C122_text D hD k hs]
  apply ink_infix
  unfold Spec.helpText
  exact infix_names ..

/-! ### A line for each parameter -/

theorem wrap_nil {D : Docs} (hD : Spec.Python D) (w : Nat) : D.wrap w [] = [] := by
  have h1 : D.tabs [] = [] := hD.noTabs _ (by simp)
  have h2 : D.split [] = [] := by
    have h := hD.split []
    have hc := hD.chunk []
    cases hs : D.split [] with
    | nil => rfl
    | cons c cs =>
      rw [hs] at h hc
      simp only [List.flatten_cons, List.append_eq_nil_iff] at h
      exact absurd (h.1 ▸ List.mem_cons_self) hc
  unfold wrap
  simp only [h1, h2]
  rfl

/-- a line which is short enough and does not end in a blank stays as it is -/
theorem wrap_short {D : Docs} (hD : Spec.Python D) {w : Nat} {t : Text} {c : Char} (ht : '\t' ∉ t ++ [c])
    (hc : D.blank c = false) (hl : (t ++ [c]).length ≤ w) : D.wrap w (t ++ [c]) = [t ++ [c]] := by
  unfold wrap
  simp only [hD.noTabs _ ht]
  have hf := hD.split (t ++ [c])
  have hn := hD.chunk (t ++ [c])
  generalize D.split (t ++ [c]) = cs at hf hn
  rcases List.eq_nil_or_concat cs with rfl | ⟨ds, d, rfl⟩
  · simp at hf
  · rw [List.concat_eq_append] at hf hn ⊢
    have hd : d ≠ [] := by
      rintro rfl
      exact hn (by simp)
    have hlast : d.all D.blank = false := by
      obtain ⟨e, x, rfl⟩ : ∃ e x, d = e ++ [x] := by
        rcases List.eq_nil_or_concat d with h | ⟨e, x, h⟩
        · exact absurd h hd
        · exact ⟨e, x, by rw [h, List.concat_eq_append]⟩
      simp only [List.flatten_append, List.flatten_cons, List.flatten_nil, List.append_nil] at hf
      rw [← List.append_assoc] at hf
      have := (List.append_inj' hf rfl).2
      rw [List.cons.injEq] at this
      rw [this.1]
      simp [hc]
    have hone : D.oneLine w true (ds ++ [d]) = (ds ++ [d], []) := by
      have ho : D.openLine true (ds ++ [d]) = ds ++ [d] := by
        cases ds <;> rfl
      unfold oneLine
      simp only [ho]
      rw [takeFit_all w _ 0 (by rw [hf]; omega)]
      simp only [cutLong, closeLine, List.getLast?_append, List.getLast?_singleton, Option.some_or, hlast]
      rfl
    obtain ⟨x, xs, hx⟩ : ∃ x xs, ds ++ [d] = x :: xs := by
      cases ds with
      | nil => exact ⟨d, [], rfl⟩
      | cons a l => exact ⟨a, l ++ [d], rfl⟩
    rw [hx] at hone hf ⊢
    rw [wrapLoop, hone]
    simp only [List.isEmpty_cons, Bool.false_eq_true, if_false, hf]
    cases (x :: xs).flatten.length + (x :: xs).length <;> rfl

theorem splitLines_plain {D : Docs} (hD : Spec.Python D) (t : Text) (ht : t = [] ∨ t.head? = some '\n') :
    ∀ l : Text, l ≠ [] → (∀ c ∈ l, D.brk c = false) → ∃ r, D.splitLines (l ++ t) = l :: r
  | [], h, _ => absurd rfl h
  | [c], _, hb => by
    rcases ht with rfl | h
    · exact ⟨[], by simp [splitLines, hb c (by simp)]⟩
    · cases t with
      | nil => cases h
      | cons d t =>
        simp only [List.head?_cons, Option.some.injEq] at h
        subst h
        exact ⟨D.splitLines t, by simp [splitLines, hb c (by simp), hD.brkNL]⟩
  | c :: d :: l, _, hb => by
    obtain ⟨r, hr⟩ := splitLines_plain hD t ht (d :: l) (by simp) (fun x hx => hb x (List.mem_cons_of_mem _ hx))
    refine ⟨r, ?_⟩
    rw [List.cons_append, splitLines, hb c (by simp)]
    simp only [Bool.false_eq_true, if_false, hr]

theorem join_cons (l : Text) (ls : List Text) : ∃ b, join (l :: ls) = l ++ b ∧ (b = [] ∨ b.head? = some '\n') := by
  cases ls with
  | nil => exact ⟨[], by simp [join], Or.inl rfl⟩
  | cons m ls => exact ⟨'\n' :: join (m :: ls), rfl, Or.inr rfl⟩

/-- a text which is empty or opens with an end of line -/
def NLOpen (b : Text) : Prop := b = [] ∨ b.head? = some '\n'

theorem NLOpen.append {a b : Text} (ha : NLOpen a) (hb : NLOpen b) : NLOpen (a ++ b) := by
  rcases ha with rfl | h
  · exact hb
  · right
    cases a with
    | nil => cases h
    | cons => exact h

theorem NLOpen.wrapIndent (D : Docs) (t : Text) (n : Nat) : NLOpen (D.wrapIndent t (n + 1)) := Or.inr rfl

theorem NLOpen.params (D : Docs) (info : Dict String PInfo) (l : Dict String PyVal) :
    NLOpen (l.flatMap (fun p => D.wrapIndent (D.paramText info p) 1)) := by
  cases l with
  | nil => exact Or.inl rfl
  | cons p l => exact Or.inr rfl

theorem NLOpen.talib (D : Docs) (k : Klass) : NLOpen (D.talibText k) := by
  unfold talibText
  split
  · exact Or.inl rfl
  · exact Or.inl rfl
  · exact Or.inr rfl

/-- **C122** Every parameter has a line of its own, `  - name (default: value)`, unless the value has several lines or
the line would be wider than 78 characters. -/
theorem C122_line (D : Docs) (hD : Spec.Python D) (k : Klass) (n : String) (v : PyVal) (hp : (n, v) ∈ k.params)
    (hl : (Spec.paramLine n (D.showVal v)).length ≤ 78)
    (hc : ∀ c ∈ Spec.paramLine n (D.showVal v), D.brk c = false ∧ c ≠ '\t') :
    ∃ a b, D.help k = a ++ '\n' :: Spec.paramLine n (D.showVal v) ++ b ∧ (b = [] ∨ b.head? = some '\n') := by
  obtain ⟨s, t, hst⟩ := List.append_of_mem hp
  obtain ⟨d, hd, hd'⟩ := paramText_eq D k.info (n, v)
  simp only at hd
  have hline : ∃ u, Spec.paramLine n (D.showVal v) = u ++ [')'] := ⟨_, rfl⟩
  obtain ⟨r, hr⟩ := splitLines_plain hD d hd' (Spec.paramLine n (D.showVal v)) (by simp [Spec.paramLine])
    (fun c h => (hc c h).1)
  have hw : D.wrap 78 (Spec.paramLine n (D.showVal v)) = [Spec.paramLine n (D.showVal v)] := by
    obtain ⟨u, hu⟩ := hline
    rw [hu] at hl hc ⊢
    exact wrap_short hD (fun h => (hc _ h).2 rfl) hD.paren hl
  have hone : ∃ b, D.wrapIndent (D.paramText k.info (n, v)) 1 = '\n' :: Spec.paramLine n (D.showVal v) ++ b ∧ NLOpen b := by
    obtain ⟨b, hb, hb'⟩ := join_cons (Spec.paramLine n (D.showVal v)) (r.flatMap (D.wrap 78))
    refine ⟨b, ?_, hb'⟩
    rw [hd, Docs.wrapIndent, List.cons_append, splitLines, if_pos hD.brkNL, hr, List.flatMap_cons, wrap_nil hD, List.nil_append,
      List.flatMap_cons, hw, List.singleton_append, hb]
    rfl
  obtain ⟨b, hb, hb'⟩ := hone
  have hps : D.paramsText k = (D.wrapIndent "\nParams:".toList 2 ++ s.flatMap (fun p => D.wrapIndent (D.paramText k.info p) 1))
      ++ '\n' :: Spec.paramLine n (D.showVal v) ++ (b ++ t.flatMap (fun p => D.wrapIndent (D.paramText k.info p) 1)) := by
    unfold paramsText
    rw [if_neg (by simpa using List.ne_nil_of_mem hp), hst, List.flatMap_append, List.flatMap_cons, hb]
    simp only [List.append_assoc, List.cons_append]
  refine ⟨D.processDocstring (k.doc.getD []) ++ D.section_ "Aliases: " k.aliases ++ D.section_ "Inputs: " k.inputs
    ++ D.section_ "Outputs: " k.outputs ++ (D.wrapIndent "\nParams:".toList 2
      ++ s.flatMap (fun p => D.wrapIndent (D.paramText k.info p) 1)), b ++ t.flatMap (fun p => D.wrapIndent (D.paramText k.info p) 1) ++ D.talibText k, ?_,
    (hb'.append (NLOpen.params D _ _)).append (NLOpen.talib D k)⟩
  unfold help
  rw [hps]
  simp only [← List.append_assoc]


/-! ### The classes of the library -/

/-- the documentation of a parameter is a string -/
def isStr : PyVal → Bool
  | .str _ => true
  | _ => false

theorem strings_of_check {info : Dict String PInfo} (h : info.all (fun p => isStr p.2.doc) = true) : Spec.Strings info := by
  intro n i hi
  have hm := get?_eq_some_mem hi
  have := List.all_eq_true.1 h _ hm
  obtain ⟨d, r⟩ := i
  cases d <;> simp [isStr] at this
  exact ⟨_, rfl⟩

theorem lib_strings (c : Cls) (doc ta : Option Text) : Spec.Strings (libKlass c doc ta).info :=
  strings_of_check (by cases c <;> rfl)

/-- **C122** The help of a class of the library tells the truth about the parameters: for each of them it says the default `v`,
and calls which do not give the parameter do what calls with `v` do.  (With ta-lib compatibility: unless the ta-lib
settings of the class, which the help text describes at its end, change the parameter.) -/
theorem C122_told {V : Type} [PyFloat V] (D : Docs) (hD : Spec.Python D) (E : Api.Env V) (c : Cls) (doc ta : Option Text)
    (k : String) (v : PyVal) (hk : get? c.defaults k = some v) (t : Text) (ht : Spec.shown D v t) :
    Spec.ink D ("- ".toList ++ k.toList ++ " (default: ".toList ++ t ++ ")".toList)
        <:+: Spec.ink D (D.help (libKlass c doc ta)) ∧
      ∀ (kw : Dict String PyVal) (x : List (Line V)), (keys kw).Nodup → get? kw k = none →
        ((talibFlag E.talib kw).1 = false ∨ get? c.hooks.flatten k = none) →
          Api.call E c (set kw k v) x = Api.call E c kw x := by
  refine ⟨?_, fun kw x hn h0 hh => Api.C117_explicit E c kw hn k v hk h0 hh x⟩
  have h := C122_parameter D hD (libKlass c doc ta) (lib_strings c doc ta) k v (get?_eq_some_mem hk) t ht
  rw [ink_append] at h
  exact (List.prefix_append _ _).isInfix.trans h

/-- **C122** The aliases in the help of a class of the library are those of its own definition. -/
theorem C122_library_aliases (c : Cls) (doc ta : Option Text) : (libKlass c doc ta).aliases = c.row.alias := by
  cases c <;> rfl

/-! ### Aliases and documentation which are inherited -/

/-- **C122** A class which declares aliases of its own has these in its help text. -/
theorem C122_aliases_partial {base k : Klass} {doc : Option Text} {l : List String} {i o : List LDef} {p : PDecl}
    {ta : Option (Option Text)} (hk : deriveKlass base doc (some l) i o p ta = .ok k) : k.aliases = l := by
  unfold deriveKlass at hk
  cases hp : genParams [⟨base.params, base.info⟩] p with
  | error e => rw [hp] at hk; cases hk
  | ok q => rw [hp] at hk; cases hk; rfl

/-- **C122** does not hold for the aliases of a class which declares none: the help text lists the names of its base. -/
theorem C122_not_aliases (D : Docs) (hD : Spec.Python D) {base k : Klass} {doc : Option Text} {i o : List LDef} {p : PDecl}
    {ta : Option (Option Text)} (hk : deriveKlass base doc none i o p ta = .ok k) (hs : Spec.Strings k.info) :
    k.aliases = base.aliases ∧
      Spec.ink D (Spec.listed "Aliases: " base.aliases) <:+: Spec.ink D (D.help k) := by
  have h : k.aliases = base.aliases := by
    unfold deriveKlass at hk
    cases hp : genParams [⟨base.params, base.info⟩] p with
    | error e => rw [hp] at hk; cases hk
    | ok q => rw [hp] at hk; cases hk; rfl
  refine ⟨h, ?_⟩
  have h2 := C122_names D hD k hs
  rw [List.append_assoc, ink_append, h] at h2
  exact (List.prefix_append _ _).isInfix.trans h2


/-- **C122** does not hold for the documentation of inherited parameters: it is not in the help text, whatever the base says. -/
theorem C122_not_docs {base k : Klass} {doc : Option Text} {al : Option (List String)} {i o : List LDef} {p : PDecl}
    {ta : Option (Option Text)} (hk : deriveKlass base doc al i o p ta = .ok k) (hp : p.Ok) (hn : (keys base.params).Nodup)
    (hb : ∀ q ∈ base.params, q.2.isTup = false) (n : String) (hm : n ∈ keys base.params) (hnew : get? p.toDict n = none) :
    Spec.paramDoc k.info n = [] := by
  unfold deriveKlass at hk
  cases hg : genParams [⟨base.params, base.info⟩] p with
  | error e => rw [hg] at hk; cases hk
  | ok q =>
    have h := C53_doc_lost ⟨base.params, base.info⟩ p hp hn hb n hm hnew q hg
    rw [hg] at hk
    cases hk
    simp [Spec.paramDoc, h]

/-! ### Concrete cases -/

/-- runs of blanks and of other characters -/
def runs : Text → List Text
  | [] => []
  | c :: t => match runs t with
    | [] => [[c]]
    | [] :: ls => [c] :: ls
    | (d :: l) :: ls => if c.isWhitespace = d.isWhitespace then (c :: d :: l) :: ls else [c] :: (d :: l) :: ls

theorem runs_flatten : ∀ t, (runs t).flatten = t
  | [] => rfl
  | c :: t => by
    have ih := runs_flatten t
    rw [runs]
    split
    · next h => rw [h] at ih; rw [← ih]; rfl
    · next h => rw [h] at ih; rw [← ih]; rfl
    · next h =>
      rw [h] at ih
      split <;> (rw [← ih]; rfl)

theorem runs_chunk : ∀ t, [] ∉ runs t
  | [] => by simp [runs]
  | c :: t => by
    have ih := runs_chunk t
    rw [runs]
    split
    · simp
    · next h => rw [h] at ih; simp at ih
    · next h =>
      rw [h] at ih
      split
      · simpa using ih
      · simpa using ih

/-- ASCII texts, with a simple `dedent` (which is given texts with one margin) -/
def docs0 : Docs where
  blank := Char.isWhitespace
  brk c := c == '\n'
  tabs t := t.map (fun c => if c = '\t' then ' ' else c)
  split := runs
  cut n _ := n
  dedent t := join ((splitNL t).map (List.dropWhile (fun c => c == ' ')))
  fmt
    | .int i => (toString i).toList
    | .bool true => "True".toList
    | .bool false => "False".toList
    | .none => "None".toList
    | _ => "?".toList

theorem ink0_dropWhile (t : Text) : Spec.ink docs0 (t.dropWhile (fun c => c == ' ')) = Spec.ink docs0 t := by
  induction t with
  | nil => rfl
  | cons c t ih =>
    rw [List.dropWhile_cons]
    split
    · next h =>
      rw [beq_iff_eq] at h
      subst h
      rw [ih]
      rfl
    · rfl

theorem ink0_tabs (t : Text) : Spec.ink docs0 (t.map (fun c => if c = '\t' then ' ' else c)) = Spec.ink docs0 t := by
  induction t with
  | nil => rfl
  | cons c t ih =>
    rw [List.map_cons, ink_cons, ink_cons c, ih]
    by_cases h : c = '\t'
    · subst h; rfl
    · rw [if_neg h]

theorem docs0_ok : Spec.Python docs0 := by
  have hd : ∀ t, Spec.ink docs0 (docs0.dedent t) = Spec.ink docs0 t := by
    intro t
    have hj : ∀ l : List Text, Spec.ink docs0 (join l) = Spec.ink docs0 l.flatten := by
      intro l
      induction l with
      | nil => rfl
      | cons a l ih =>
        cases l with
        | nil => simp [join]
        | cons m ls =>
          rw [join, ink_append, ink_cons, ih, List.flatten_cons (l := a), ink_append]
          rfl
    have hs : ∀ t : Text, join (splitNL t) = t := by
      intro t
      induction t with
      | nil => rfl
      | cons c t ih =>
        rw [splitNL]
        split
        · next h =>
          subst h
          cases hsp : splitNL t with
          | nil => rw [hsp] at ih; rw [← ih]; cases t <;> simp [splitNL] at hsp; (split at hsp <;> try cases hsp); (split at hsp <;> cases hsp)
          | cons a l => rw [hsp] at ih; rw [join, ih]; rfl
        · cases hsp : splitNL t with
          | nil => rw [hsp] at ih; rw [← ih]; rfl
          | cons a l =>
            rw [hsp] at ih
            cases l with
            | nil => simp only [join] at ih ⊢; rw [ih]
            | cons b l => simp only [join] at ih ⊢; rw [← ih]; rfl
    show Spec.ink docs0 (join ((splitNL t).map _)) = _
    conv_rhs => rw [← hs t]
    rw [hj, hj]
    generalize splitNL t = l
    induction l with
    | nil => rfl
    | cons a l ih => rw [List.map_cons, List.flatten_cons, ink_append, ih, ink0_dropWhile, List.flatten_cons, ink_append]
  exact {
    newline := rfl
    space := rfl
    paren := rfl
    brkNL := rfl
    brk := fun c h => by
      have : c = '\n' := by simpa [docs0] using h
      subst this; rfl
    tabs := ink0_tabs
    noTabs := fun t h => by
      show t.map _ = t
      conv_rhs => rw [← List.map_id t]
      apply List.map_congr_left
      intro c hc
      rw [if_neg (by rintro rfl; exact h hc)]
      rfl
    split := runs_flatten
    chunk := runs_chunk
    cut := fun n t h => h
    dedent := hd }

/-- `truerange`, which has a documented parameter -/
def klass0 : Klass :=
  ⟨some "True range.\n\n    See wikipedia".toList, ["TR", "trange"], ["high", "low", "close"], ["truerange"],
    [("_period", .int 1)], [("_period", ⟨.str "Period for high/low vs close for truerange calc", .bool false⟩)], none⟩

/-- a class derived from it -/
def klass1 : Except Err Klass :=
  deriveKlass klass0 none none [] [.name "atr"] (.seq [("period", [.int 14, .str "Period to consider"]), ("_ma", [.cls "smma"])])
    (some (some "Same".toList))

example : String.ofList (docs0.help klass0) =
    "True range.\n\nSee wikipedia\n\nAliases: TR, trange\n\nInputs: high, low, close\n\nOutputs: truerange\n\nParams:\n  - _period (default: 1)\n    Period for high/low vs close for truerange calc" := by
  decide +kernel

/-- the derived class has the aliases of its base and does not say what `_period` means -/
example : klass1.toOption.map (fun k => String.ofList (docs0.help k)) = some
    "\n\n\nAliases: TR, trange\n\nInputs: high, low, close\n\nOutputs: atr\n\nParams:\n  - _period (default: 1)\n  - period (default: 14)\n    Period to consider\n  - _ma (default: smma)\n\nTA-LIB (with compatibility flag \"_talib=True\"):\n\nSame\n" := by
  decide +kernel

example : Spec.ink docs0 "- period (default: 30)".toList <:+: Spec.ink docs0 (docs0.help (libKlass .sma none none)) :=
  (C122_told (V := Ext ℚ) docs0 docs0_ok Api.E0 .sma none none "period" (.int 30) rfl "30".toList
    (by
      refine ⟨?_, ?_, ?_⟩
      · intro _ h; cases h
      · intro _ h; cases h
      · intro _ _; decide +kernel)).1

/-- the hypotheses of `C122_line` -/
example : ∃ a b, docs0.help klass0 = a ++ '\n' :: "  - _period (default: 1)".toList ++ b ∧ (b = [] ∨ b.head? = some '\n') :=
  C122_line docs0 docs0_ok klass0 "_period" (.int 1) (by simp [klass0]) (by decide +kernel) (by decide +kernel)

end Bta.Meta
