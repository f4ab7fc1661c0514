import Verif.Meta.Settings
import Verif.Props.Call

/-!
# The settings (C114)
-/

set_option linter.unusedSectionVars false
set_option linter.unusedVariables false

namespace Bta.Meta

open Py

variable {V : Type}

/-! ## Specification: a setting is what it was last set to -/

/-- The last of the values which the acts of a program give to a setting; `d` if none does. -/
def Spec.last {A B : Type} (gives : A → Option B) (d : B) (h : List A) : B := ((h.filterMap gives).getLast?).getD d

/-- The value an act gives to "configured columns first". -/
def Spec.givesFirst : Act V → Option Bool
  | .ohlcFirst b => some b
  | _ => none

/-- The value an act gives to ta-lib compatibility. -/
def Spec.givesTalib : Act V → Option Bool
  | .talib b => some b
  | _ => none

/-- The value an act gives to the form in which results are returned. -/
def Spec.givesRet : Act V → Option String
  | .ret v => some v
  | .retDataframe => some "df"
  | _ => none

/-- The value an act gives to the column configured for an input named `n` (the outer option: whether it gives one). -/
def Spec.givesColumn (n : String) : Act V → Option (Option ColRef)
  | .inputIndices kw => (get? kw n).map some
  | _ => none

/-- The keywords of one call are a dictionary: no name twice. -/
def Act.Ok : Act V → Prop
  | .inputIndices kw => (keys kw).Nodup
  | _ => True

/-! ## Lemmas -/

/-- The invariant: users hold positions of copies only. -/
def Lib.Inv (s : Lib) : Prop := 0 < s.mem.length ∧ ∀ r ∈ s.held, 0 < r ∧ r < s.mem.length

theorem Lib.init_inv (g : Glob) : (Lib.init g).Inv := by
  refine ⟨by simp [Lib.init], fun r hr => ?_⟩
  simp [Lib.init] at hr

theorem Lib.act_inv (low : String → String) (classes : String → ClassInfo) (s : Lib) (hs : s.Inv) (a : Act V) :
    (s.act low classes a).Inv := by
  obtain ⟨h0, hh⟩ := hs
  cases a with
  | ohlcFirst b => exact ⟨h0, hh⟩
  | inputIndices kw => simpa [Lib.Inv, Lib.act, Lib.setInputIndices] using ⟨h0, hh⟩
  | getInputIndices =>
    refine ⟨by simp [Lib.act, Lib.getInputIndices], fun r hr => ?_⟩
    simp only [Lib.act, Lib.getInputIndices, List.mem_append, List.mem_singleton, List.length_append, List.length_cons,
      List.length_nil] at hr ⊢
    rcases hr with hr | hr
    · have := hh r hr; omega
    · omega
  | edit k f =>
    simp only [Lib.act]
    split
    · exact ⟨h0, hh⟩
    · simpa [Lib.Inv] using ⟨h0, hh⟩
  | ret v => exact ⟨h0, hh⟩
  | retDataframe => exact ⟨h0, hh⟩
  | talib b => exact ⟨h0, hh⟩
  | call c inner => exact ⟨h0, hh⟩

theorem Lib.acts_inv (low : String → String) (classes : String → ClassInfo) (h : List (Act V)) :
    ∀ s : Lib, s.Inv → (s.acts low classes h).Inv := by
  induction h with
  | nil => intro s hs; exact hs
  | cons a h ih => intro s hs; exact ih _ (s.act_inv low classes hs a)

/-- From one act to all: a reading which every act changes to what it gives. -/
theorem Lib.acts_last {B : Type} (low : String → String) (classes : String → ClassInfo) (read : Lib → B)
    (gives : Act V → Option B) (ok : Act V → Prop)
    (hstep : ∀ (s : Lib) (a : Act V), s.Inv → ok a → read (s.act low classes a) = (gives a).getD (read s)) :
    ∀ (h : List (Act V)) (s : Lib), s.Inv → (∀ a ∈ h, ok a) → read (s.acts low classes h) = Spec.last gives (read s) h := by
  intro h
  induction h with
  | nil => intro s _ _; rfl
  | cons a h ih =>
    intro s hs hok
    have h1 := ih (s.act low classes a) (s.act_inv low classes hs a) (fun b hb => hok b (List.mem_cons_of_mem _ hb))
    have h2 := hstep s a hs (hok a List.mem_cons_self)
    show read ((s.act low classes a).acts low classes h) = _
    rw [h1, h2]
    unfold Spec.last
    cases hg : gives a with
    | none => simp [hg]
    | some b =>
      simp only [List.filterMap_cons, hg, Option.getD_some]
      cases hl : (h.filterMap gives).getLast? with
      | none => 
        rw [List.getLast?_eq_none_iff] at hl
        simp [hl]
      | some x => simp [List.getLast?_cons, hl]

theorem get?_reverse_nodup {α β : Type} [DecidableEq α] (e : Dict α β) (h : (keys e).Nodup) (x : α) :
    get? e.reverse x = get? e x := by
  induction e with
  | nil => rfl
  | cons p e ih =>
    obtain ⟨k, w⟩ := p
    simp only [keys, List.map_cons, List.nodup_cons] at h
    rw [List.reverse_cons, get?_append, ih h.2]
    by_cases hk : k = x
    · subst hk
      have : get? e k = none := get?_eq_none_iff.2 h.1
      simp [get?, this]
    · simp [get?, hk]

theorem Lib.act_column (low : String → String) (classes : String → ClassInfo) (n : String) (s : Lib) (a : Act V)
    (hs : s.Inv) (ha : a.Ok) :
    get? ((s.act low classes a).cell 0) n = ((Spec.givesColumn n a).getD (get? (s.cell 0) n)) := by
  obtain ⟨h0, hh⟩ := hs
  cases a with
  | inputIndices kw =>
    have : ((s.act low classes (Act.inputIndices (V := V) kw)).cell 0) = update (s.cell 0) kw := by
      simp [Lib.act, Lib.setInputIndices, Lib.cell, List.getD, h0]
    rw [this, get?_update, get?_reverse_nodup _ ha]
    simp only [Spec.givesColumn]
    cases get? kw n <;> simp
  | getInputIndices =>
    have : ((s.act low classes (Act.getInputIndices (V := V))).cell 0) = s.cell 0 := by
      simp only [Lib.act, Lib.getInputIndices, Lib.cell, List.getD]
      rw [List.getElem?_append_left h0]
    rw [this]; rfl
  | edit k f =>
    have : ((s.act low classes (Act.edit (V := V) k f)).cell 0) = s.cell 0 := by
      simp only [Lib.act]
      split
      · rfl
      · rename_i r hr
        have := hh r (List.mem_of_getElem? hr)
        simp only [Lib.cell, List.getD]
        rw [List.getElem?_set_ne (by omega)]
    rw [this]; rfl
  | ohlcFirst b => rfl
  | ret v => rfl
  | retDataframe => rfl
  | talib b => rfl
  | call c inner => rfl

/-! ## Each setting is what it was last set to -/

/-- **C114** (all programs: settings, reading settings and changing what was read, and calls of any indicators, failing or
not, in any order): afterwards every setting has the value which the program gave it last, or its initial value. -/
theorem C114_last_set (low : String → String) (classes : String → ClassInfo) (g : Glob) (h : List (Act V))
    (hok : ∀ a ∈ h, a.Ok) :
    let s := (Lib.init g).acts low classes h
    s.ohlcFirst = Spec.last Spec.givesFirst false h ∧
    s.talib = Spec.last Spec.givesTalib false h ∧
    s.ret = Spec.last Spec.givesRet "" h ∧
    ∀ n, get? (s.cell 0) n = Spec.last (Spec.givesColumn n) (get? defaultConfig.indices n) h := by
  refine ⟨?_, ?_, ?_, fun n => ?_⟩
  · refine Lib.acts_last low classes (fun s => s.ohlcFirst) Spec.givesFirst (fun _ => True) (fun s a _ _ => ?_) h _
      (Lib.init_inv g) (fun _ _ => trivial)
    cases a <;> first | rfl | (simp only [Lib.act]; split <;> rfl)
  · refine Lib.acts_last low classes (fun s => s.talib) Spec.givesTalib (fun _ => True) (fun s a _ _ => ?_) h _
      (Lib.init_inv g) (fun _ _ => trivial)
    cases a <;> first | rfl | (simp only [Lib.act]; split <;> rfl)
  · refine Lib.acts_last low classes (fun s => s.ret) Spec.givesRet (fun _ => True) (fun s a _ _ => ?_) h _
      (Lib.init_inv g) (fun _ _ => trivial)
    cases a <;> first | rfl | (simp only [Lib.act]; split <;> rfl)
  · exact Lib.acts_last low classes (fun s => get? (s.cell 0) n) (Spec.givesColumn n) Act.Ok
      (fun s a hs ha => Lib.act_column low classes n s a hs ha) h _ (Lib.init_inv g) hok

/-- A program which uses everything: the volume is read from column 7 at the end, whatever was done to the dictionary the
user got. -/
example :
    let h : List (Act Nat) := [.talib true, .getInputIndices, .inputIndices [("volume", .num 6)], .edit 0 (fun _ => []),
      .retDataframe, .inputIndices [("volume", .num 7), ("vwap", .str "VWAP")], .talib false, .getInputIndices,
      .edit 1 (fun d => d.map (fun p => (p.1, .num 0)))]
    (∀ a ∈ h, a.Ok) ∧
    Spec.last (Spec.givesColumn "volume") (some (.num 4)) h = some (.num 7) ∧
    Spec.last (Spec.givesColumn "close") (some (.num 3)) h = some (.num 3) ∧
    Spec.last Spec.givesTalib false h = false ∧ Spec.last Spec.givesRet "" h = "df" := by
  refine ⟨?_, by decide +kernel, by decide +kernel, by decide +kernel, by decide +kernel⟩
  intro a ha
  simp only [List.mem_cons, List.not_mem_nil, or_false] at ha
  rcases ha with rfl | rfl | rfl | rfl | rfl | rfl | rfl | rfl | rfl <;> simp [Act.Ok, keys]

/-! ## What was read is a copy -/

theorem Lib.held_acts (low : String → String) (classes : String → ClassInfo) (h : List (Act V)) :
    ∀ s : Lib, ∃ t, (s.acts low classes h).held = s.held ++ t := by
  induction h with
  | nil => intro s; exact ⟨[], by simp [Lib.acts]⟩
  | cons a h ih =>
    intro s
    obtain ⟨t, ht⟩ := ih (s.act low classes a)
    have h1 : ∃ u, (s.act low classes a).held = s.held ++ u := by
      cases a with
      | getInputIndices => exact ⟨_, rfl⟩
      | edit k f => refine ⟨[], ?_⟩; simp only [Lib.act]; split <;> simp
      | _ => exact ⟨[], (List.append_nil _).symm⟩
    obtain ⟨u, hu⟩ := h1
    exact ⟨u ++ t, by show ((s.act low classes a).acts low classes h).held = _; rw [ht, hu, List.append_assoc]⟩

/-- Which dictionaries of the user an act changes. -/
def Spec.edits : Act V → Option Nat
  | .edit k _ => some k
  | _ => none

/-- Positions are not held twice. -/
def Lib.Fresh (s : Lib) : Prop := s.held.Pairwise (· < ·) ∧ s.Inv

theorem Lib.act_fresh (low : String → String) (classes : String → ClassInfo) (s : Lib) (hs : s.Fresh) (a : Act V) :
    (s.act low classes a).Fresh := by
  refine ⟨?_, s.act_inv low classes hs.2 a⟩
  cases a with
  | getInputIndices =>
    simp only [Lib.act, Lib.getInputIndices]
    rw [List.pairwise_append]
    refine ⟨hs.1, List.pairwise_singleton _ _, fun x hx y hy => ?_⟩
    rw [List.mem_singleton] at hy
    subst hy
    exact (hs.2.2 x hx).2
  | edit k f => simp only [Lib.act]; split <;> exact hs.1
  | ohlcFirst b => exact hs.1
  | inputIndices kw => exact hs.1
  | ret v => exact hs.1
  | retDataframe => exact hs.1
  | talib b => exact hs.1
  | call c inner => exact hs.1

theorem Lib.acts_fresh (low : String → String) (classes : String → ClassInfo) (h : List (Act V)) :
    ∀ s : Lib, s.Fresh → (s.acts low classes h).Fresh := by
  induction h with
  | nil => intro s hs; exact hs
  | cons a h ih => intro s hs; exact ih _ (s.act_fresh low classes hs a)

theorem Lib.acts_cell (low : String → String) (classes : String → ClassInfo) (k r : Nat) (h : List (Act V)) :
    ∀ s : Lib, s.Fresh → s.held[k]? = some r → (∀ a ∈ h, Spec.edits a ≠ some k) →
      (s.acts low classes h).cell r = s.cell r ∧ (s.acts low classes h).held[k]? = some r := by
  induction h with
  | nil => intro s _ hk _; exact ⟨rfl, hk⟩
  | cons a h ih =>
    intro s hs hk hn
    have hr := hs.2.2 r (List.mem_of_getElem? hk)
    have hk' : (s.act low classes a).held[k]? = some r := by
      obtain ⟨t, ht⟩ := Lib.held_acts low classes [a] s
      have : (s.act low classes a).held = s.held ++ t := ht
      rw [this, List.getElem?_append_left (List.getElem?_eq_some_iff.1 hk).1]
      exact hk
    obtain ⟨h1, h2⟩ := ih _ (s.act_fresh low classes hs a) hk' (fun b hb => hn b (List.mem_cons_of_mem _ hb))
    refine ⟨h1.trans ?_, h2⟩
    cases a with
    | inputIndices kw =>
      simp only [Lib.act, Lib.setInputIndices, Lib.cell, List.getD]
      rw [List.getElem?_set_ne (by omega)]
    | getInputIndices =>
      simp only [Lib.act, Lib.getInputIndices, Lib.cell, List.getD]
      rw [List.getElem?_append_left hr.2]
    | edit j f =>
      simp only [Lib.act]
      split
      · rfl
      · rename_i q hq
        have hjk : j ≠ k := fun e => hn (.edit j f) List.mem_cons_self (by rw [e]; rfl)
        have hqr : q ≠ r := by
          rintro rfl
          obtain ⟨hj, hj'⟩ := List.getElem?_eq_some_iff.1 hq
          obtain ⟨hkl, hk''⟩ := List.getElem?_eq_some_iff.1 hk
          have hp := List.pairwise_iff_getElem.1 hs.1
          rcases Nat.lt_or_gt_of_ne hjk with hlt | hlt
          · have := hp j k hj hkl hlt; omega
          · have := hp k j hkl hj hlt; omega
        simp only [Lib.cell, List.getD]
        rw [List.getElem?_set_ne hqr]
    | ohlcFirst b => rfl
    | ret v => rfl
    | retDataframe => rfl
    | talib b => rfl
    | call c inner => rfl

/-- **C114**: what `get_input_indices` returned is a snapshot: it has the columns configured at that time, and it keeps
them, whatever is set, read or calculated later, as long as the user does not change it themselves. -/
theorem C114_snapshot (low : String → String) (classes : String → ClassInfo) (g : Glob) (h h' : List (Act V)) (k : Nat)
    (hk : k = ((Lib.init g).acts low classes h).held.length) (hn : ∀ a ∈ h', Spec.edits a ≠ some k) :
    ∃ r, ((Lib.init g).acts low classes (h ++ .getInputIndices :: h')).held[k]? = some r ∧
      ((Lib.init g).acts low classes (h ++ .getInputIndices :: h')).cell r = ((Lib.init g).acts low classes h).cell 0 := by
  have hf0 : (Lib.init g).Fresh := ⟨by simp [Lib.init], Lib.init_inv g⟩
  have hf := Lib.acts_fresh low classes h _ hf0
  generalize hs : (Lib.init g).acts low classes h = s at hk hf ⊢
  have heq : (Lib.init g).acts low classes (h ++ .getInputIndices :: h') =
      (s.act low classes (.getInputIndices (V := V))).acts low classes h' := by
    simp only [Lib.acts, List.foldl_append, List.foldl_cons] at hs ⊢
    rw [hs]
  rw [heq]
  have h1 : (s.act low classes (.getInputIndices (V := V))).held[k]? = some s.mem.length := by
    simp [Lib.act, Lib.getInputIndices, hk]
  obtain ⟨h2, h3⟩ := Lib.acts_cell low classes k s.mem.length h' _ (s.act_fresh low classes hf _) h1 hn
  refine ⟨_, h3, h2.trans ?_⟩
  simp [Lib.act, Lib.getInputIndices, Lib.cell, List.getD]

/-! ## Settings and calls -/

/-- Two configurations which say the same about every input. -/
def Config.Same (a b : Config) : Prop := a.ohlcFirst = b.ohlcFirst ∧ ∀ n, get? a.indices n = get? b.indices n

theorem configIdx_same {a b : Config} (h : a.Same b) : configIdx a = configIdx b := by
  funext cols n
  simp only [configIdx, h.2]

theorem wantedIdx_same {a b : Config} (h : a.Same b) : wantedIdx a = wantedIdx b := by
  funext cols free n
  simp only [wantedIdx, configIdx_same h, h.1]

theorem bindLoop_same {a b : Config} (h : a.Same b) (cols : List String) :
    ∀ ins free, bindLoop a cols ins free = bindLoop b cols ins free := by
  intro ins
  induction ins with
  | nil => intro free; rfl
  | cons i ins ih => intro free; simp only [bindLoop, wantedIdx_same h, ih]

theorem mkInput_same {a b : Config} (h : a.Same b) (low : String → String) :
    mkInput (V := V) a low = mkInput b low := by
  funext x n
  cases x <;> simp only [mkInput, lineFromDataframe, h.2]

theorem mkInputs_same {a b : Config} (h : a.Same b) (low : String → String) :
    ∀ (as : List (Arg V)) ns, mkInputs a low as ns = mkInputs b low as ns := by
  intro as
  induction as with
  | nil => intro ns; cases ns <;> rfl
  | cons x as ih =>
    intro ns
    cases ns with
    | nil => rfl
    | cons n ns => simp only [mkInputs, mkInput_same h, ih]

theorem bindInputs_same {a b : Config} (h : a.Same b) (low : String → String) (top : Bool) (cls : InCls)
    (args : List (Arg V)) : bindInputs a low top cls args = bindInputs b low top cls args := by
  have hf : fromArgs a low top cls args = fromArgs b low top cls args := by
    cases args with
    | nil => rfl
    | cons x as =>
      simp only [fromArgs, mkInputs_same h]
      cases x <;> simp only [fromFrame, dataframeColumns, bindLoop_same h]
  simp only [bindInputs, hf]

/-- Two worlds which differ at most in the order of the configured columns. -/
structure World.Same (a b : World) : Prop where
  cfg : a.cfg.Same b.cfg
  low : a.low = b.low
  classes : a.classes = b.classes
  talib : a.talib = b.talib
  retDf : a.retDf = b.retDf

theorem invokeWith_same {a b : World} (h : a.Same b) (c : Call V) (g : Glob) (run run')
    (hr : ∀ v g, run v g = run' v g) : invokeWith a c g run = invokeWith b c g run' := by
  have : run = run' := by funext v g; exact hr v g
  subst this
  simp only [invokeWith, enter, h.low, h.classes, h.talib, h.retDf, bindInputs_same h.cfg]

theorem exec_same {a b : World} (h : a.Same b) (x : Body V) : ∀ g, exec a x g = exec b x g := by
  induction x with
  | ret outs => intro g; rfl
  | raise e => intro g; rfl
  | call c inner next ih1 ih2 =>
    intro g
    simp only [exec, invokeWith_same h c g _ _ (fun v g => ih1 v g), ih2]

theorem invoke_same {a b : World} (h : a.Same b) (c : Call V) (inner : View V → Body V) (g : Glob) :
    invoke a c inner g = invoke b c inner g :=
  invokeWith_same h c g _ _ (fun v g => exec_same h (inner v) g)

/-- **C114** (partial: see `C114_restore_lost`; all states, all programs in between): configured columns can be put back.
After `saved = get_input_indices()`, any program which gives columns only to names in `saved` and leaves the other settings
and the classes as they were, and `set_input_indices(**saved)`, every call of every indicator has the outcome it would have
had before. -/
theorem C114_restore_partial (low : String → String) (classes : String → ClassInfo) (s : Lib) (hs : s.Inv)
    (hnd : (keys (s.cell 0)).Nodup) (h : List (Act V)) (hok : ∀ a ∈ h, a.Ok)
    (hin : ∀ a ∈ h, ∀ kw, a = .inputIndices kw → ∀ n ∈ keys kw, n ∈ keys (s.cell 0))
    (hset : let t := s.acts low classes h
      t.ohlcFirst = s.ohlcFirst ∧ t.talib = s.talib ∧ t.ret = s.ret ∧ t.glob = s.glob)
    (c : Call V) (inner : View V → Body V) :
    ((s.acts low classes h).setInputIndices (s.cell 0)).call low classes c inner = s.call low classes c inner := by
  obtain ⟨e1, e2, e3, e4⟩ := hset
  generalize ht : s.acts low classes h = t at e1 e2 e3 e4
  have htI : t.Inv := ht ▸ Lib.acts_inv low classes h s hs
  have hc : (t.setInputIndices (s.cell 0)).cell 0 = update (t.cell 0) (s.cell 0) := by
    simp [Lib.setInputIndices, Lib.cell, List.getD, htI.1]
  have hget : ∀ n, get? ((t.setInputIndices (s.cell 0)).cell 0) n = get? (s.cell 0) n := by
    intro n
    rw [hc, get?_update, get?_reverse_nodup _ hnd]
    cases hg : get? (s.cell 0) n with
    | some v => rfl
    | none =>
      have h1 := Lib.acts_last low classes (fun s => get? (s.cell 0) n) (Spec.givesColumn n) Act.Ok
        (fun s a hs ha => Lib.act_column low classes n s a hs ha) h s hs hok
      rw [ht] at h1
      have h2 : h.filterMap (Spec.givesColumn n) = [] := by
        rw [List.filterMap_eq_nil_iff]
        intro a ha
        cases a with
        | inputIndices kw =>
          simp only [Spec.givesColumn, Option.map_eq_none_iff]
          rw [get?_eq_none_iff]
          intro hm
          exact get?_eq_none_iff.1 hg (hin _ ha kw rfl n hm)
        | _ => rfl
      simp only [Spec.last, h2, List.getLast?_nil, Option.getD_none] at h1
      rw [h1, hg]; rfl
  unfold Lib.call
  have hw : World.Same ((t.setInputIndices (s.cell 0)).world low classes) (s.world low classes) := by
    refine ⟨⟨e1, hget⟩, rfl, rfl, e2, ?_⟩
    simp only [Lib.world, Lib.getReturnDataframe, Lib.setInputIndices, e3]
  rw [invoke_same hw]
  show (invoke _ c inner t.glob).1 = _
  rw [e4]

/-- **C114** (negation): a name which was not configured before stays configured: after `saved = get_input_indices()`,
`set_input_indices(n=1)`, `set_input_indices(**saved)` an indicator with an input of that name gets the second column of
a DataFrame without such a column, where it got the first before. -/
theorem C114_restore_lost (low : String → String) (s : Lib) (hs : s.Inv) (n : String) (hnd : (keys (s.cell 0)).Nodup)
    (hn : n ∉ keys (s.cell 0)) (a b : String × List V) (rest : List (String × List V))
    (hcols : n ∉ (a :: b :: rest).map (fun c => low c.1)) (classes : String → ClassInfo) :
    lineFromDataframe (s.world low classes).cfg low ⟨a :: b :: rest⟩ n = .ok (Line.ofSeries a.2) ∧
    lineFromDataframe (((s.setInputIndices [(n, .num 1)]).setInputIndices (s.cell 0)).world low classes).cfg low
      ⟨a :: b :: rest⟩ n = .ok (Line.ofSeries b.2) := by
  have hidx : index? ((a :: b :: rest).map (fun c => low c.1)) n = none := by
    generalize (a :: b :: rest).map (fun c => low c.1) = l at hcols
    induction l with
    | nil => rfl
    | cons y l ih =>
      simp only [List.mem_cons, not_or] at hcols
      simp [index?, ih hcols.2, Ne.symm hcols.1]
  have hc : (((s.setInputIndices [(n, .num 1)]).setInputIndices (s.cell 0)).cell 0) =
      update (update (s.cell 0) [(n, .num 1)]) (s.cell 0) := by
    simp [Lib.setInputIndices, Lib.cell, List.getD, hs.1]
  have hg : get? (((s.setInputIndices [(n, .num 1)]).setInputIndices (s.cell 0)).cell 0) n = some (.num 1) := by
    rw [hc, get?_update, get?_reverse_nodup _ hnd, get?_eq_none_iff.2 hn, get?_update]
    simp [get?]
  constructor
  · simp only [lineFromDataframe, hidx, Lib.world, get?_eq_none_iff.2 hn]
    have h0 : (0 : Int) < (rest.length : Int) + 1 + 1 := by omega
    simp [Frame.iloc, bind, Except.bind, h0]
  · simp only [lineFromDataframe, hidx, Lib.world, hg]
    have h1 : (1 : Int) < (rest.length : Int) + 1 + 1 := by omega
    have h2 : ¬ (rest.length : Int) + 1 + 1 ≤ 1 := by omega
    simp [Frame.iloc, bind, Except.bind, h1, h2]

/-- **C114**: `set_input_indices` on a configuration: the names which are given have the column which was given last, all others the
column they had; the order in which columns are looked for is not touched. -/
theorem C114_config (c : Config) (kw : List (String × ColRef)) (n : String) :
    (∀ r, get? kw.reverse n = some r → get? (c.setInputIndices kw).indices n = some r) ∧
    (n ∉ kw.map Prod.fst → get? (c.setInputIndices kw).indices n = get? c.indices n) ∧
    (c.setInputIndices kw).ohlcFirst = c.ohlcFirst := by
  refine ⟨fun r h => ?_, fun h => ?_, rfl⟩
  · show get? (update c.indices kw) n = some r
    rw [get?_update, h]; rfl
  · show get? (update c.indices kw) n = _
    rw [get?_update, get?_eq_none_iff.2 (by simpa [keys] using h)]; rfl

/-- Non-vacuity: the closing price by another name, the high as it was. -/
example : get? [("close", ColRef.str "adjclose")].reverse "close" = some (.str "adjclose") ∧
    "high" ∉ [("close", ColRef.str "adjclose")].map Prod.fst := by decide +kernel

/-- **C114** (negation; all DataFrames): a column which is configured by a name with upper case letters is never found, even if
the DataFrame has a column of exactly this name, because the names of the columns are turned to lower case and the
configured one is not. -/
theorem C114_name_lost (low : String → String) (s : Lib) (n name : String) (hup : ∀ x, low x ≠ name)
    (hc : get? (s.cell 0) n = some (.str name)) (cols : List String) (classes : String → ClassInfo) :
    configIdx (s.world low classes).cfg (cols.map low) n = .error (.colIdxStrNotFound n name) := by
  have hidx : index? (cols.map low) name = none := by
    induction cols with
    | nil => rfl
    | cons y l ih => simp [index?, hup y, ih]
  simp only [configIdx, Lib.world, hc, hidx]

/-- **C114**: a column which is configured by a name in lower case is found in every DataFrame which has it, in any case. -/
theorem C114_name_partial (low : String → String) (s : Lib) (n name : String) (hc : get? (s.cell 0) n = some (.str name))
    (cols : List String) (hcol : ∃ x ∈ cols, low x = name) (classes : String → ClassInfo) :
    ∃ i : Nat, configIdx (s.world low classes).cfg (cols.map low) n = .ok i ∧ ((cols.map low)[i]? = some name) ∧
      ∀ j < i, (cols.map low)[j]? ≠ some name := by
  have hidx : ∃ i : Nat, index? (cols.map low) name = some i ∧ (cols.map low)[i]? = some name ∧
      ∀ j < i, (cols.map low)[j]? ≠ some name := by
    induction cols with
    | nil => obtain ⟨x, hx, -⟩ := hcol; cases hx
    | cons y l ih =>
      by_cases hy : low y = name
      · exact ⟨0, by simp [index?, hy], by simp [hy], fun j hj => absurd hj (Nat.not_lt_zero j)⟩
      · obtain ⟨x, hx, hxn⟩ := hcol
        have hxl : x ∈ l := by
          rcases List.mem_cons.1 hx with rfl | h
          · exact absurd hxn hy
          · exact h
        obtain ⟨i, h1, h2, h3⟩ := ih ⟨x, hxl, hxn⟩
        refine ⟨i + 1, by simp [index?, hy, h1], by simpa using h2, fun j hj => ?_⟩
        cases j with
        | zero => simp [hy]
        | succ j => simpa using h3 j (by omega)
  obtain ⟨i, h1, h2, h3⟩ := hidx
  exact ⟨i, by simp only [configIdx, Lib.world, hc, h1], h2, h3⟩

/-- "Adj Close" configured for `close`, with `str.lower` on the names of these columns. -/
example (g : Glob) :
    let low : String → String := fun x => if x = "Adj Close" then "adj close" else if x = "Close" then "close" else "open"
    let s := (Lib.init g).setInputIndices [("close", .str "Adj Close")]
    let t := (Lib.init g).setInputIndices [("close", .str "adj close")]
    (∀ x, low x ≠ "Adj Close") ∧ get? (s.cell 0) "close" = some (.str "Adj Close") ∧
    configIdx (s.world low (fun _ => ⟨[], 0, []⟩)).cfg (["Open", "Close", "Adj Close"].map low) "close" =
      .error (.colIdxStrNotFound "close" "Adj Close") ∧
    configIdx (t.world low (fun _ => ⟨[], 0, []⟩)).cfg (["Open", "Close", "Adj Close"].map low) "close" = .ok 2 := by
  refine ⟨?_, rfl, rfl, rfl⟩
  intro x
  dsimp only
  split
  · decide
  · split <;> decide

/-- **C114** (all programs without a failing initialiser before, so that no indicator counts as running, see C57): a call
returns a DataFrame if `set_return` was last called with 'df' or 'dataframe' (`set_return_dataframe` is the former), and
the indicator in all other cases. -/
theorem C114_return_partial (low : String → String) (classes : String → ClassInfo) (g : Glob) (h : List (Act V))
    (hst : ((Lib.init g).acts low classes h).glob.stack = 0) (c : Call V) (inner : View V → Body V)
    (r : Res V) (hr : ((Lib.init g).acts low classes h).call low classes c inner = .ok r) :
    r.df = true ↔ (Spec.last Spec.givesRet "" h = "df" ∨ Spec.last Spec.givesRet "" h = "dataframe") := by
  have h1 := C57_dataframe_partial _ c inner _ r hst hr
  have h2 : ((Lib.init g).acts low classes h).ret = Spec.last Spec.givesRet "" h := by
    refine Lib.acts_last low classes (fun s => s.ret) Spec.givesRet (fun _ => True) (fun s a _ _ => ?_) h _
      (Lib.init_inv g) (fun _ _ => trivial)
    cases a <;> first | rfl | (simp only [Lib.act]; split <;> rfl)
  rw [h1]
  simp [Lib.world, Lib.getReturnDataframe, h2]

/-- The ta-lib mode users expect for a call: what the call says or else the setting. -/
def Spec.mode (setting : Bool) (kw : Dict String PyVal) : Bool :=
  match get? kw "_talib" with
  | some v => v.truthy
  | none => setting

theorem invoke_flag (w : World) (c : Call V) (inner inner' : View V → Body V) (g : Glob)
    (h : ∀ v, v.talib = (talibFlag w.talib c.kw).1 → inner v = inner' v) : invoke w c inner g = invoke w c inner' g := by
  unfold invoke invokeWith
  simp only
  split
  · rfl
  · rw [h _ rfl]

/-- **C114** (partial: see `C114_mode_ignored`; all programs): the initialisers of a call run in the mode the call asks for,
or, if it says nothing, in the mode which was set last (initialisers which agree in this mode have the same outcome) -
provided that the call does not ask to switch the mode off while the setting is on. -/
theorem C114_mode_partial (low : String → String) (classes : String → ClassInfo) (g : Glob) (h : List (Act V))
    (c : Call V) (hoff : Spec.last Spec.givesTalib false h = true → ∀ v, get? c.kw "_talib" = some v → v.truthy = true)
    (inner inner' : View V → Body V)
    (hv : ∀ v, v.talib = Spec.mode (Spec.last Spec.givesTalib false h) c.kw → inner v = inner' v) :
    ((Lib.init g).acts low classes h).call low classes c inner =
      ((Lib.init g).acts low classes h).call low classes c inner' := by
  have h2 : ((Lib.init g).acts low classes h).talib = Spec.last Spec.givesTalib false h := by
    refine Lib.acts_last low classes (fun s => s.talib) Spec.givesTalib (fun _ => True) (fun s a _ _ => ?_) h _
      (Lib.init_inv g) (fun _ _ => trivial)
    cases a <;> first | rfl | (simp only [Lib.act]; split <;> rfl)
  unfold Lib.call
  rw [invoke_flag _ c inner inner' _ (fun v hv' => hv v (hv'.trans ?_))]
  simp only [Lib.world, h2, talibFlag, Spec.mode]
  cases hk : get? c.kw "_talib" with
  | none => simp [PyVal.truthy]
  | some x =>
    cases hl : Spec.last Spec.givesTalib false h with
    | false => simp
    | true => simp [hoff hl x hk]

/-- **C114** (negation; all programs which left the setting on): a call with `_talib=False` runs in ta-lib mode: what the
initialisers do without it does not matter. -/
theorem C114_mode_ignored (low : String → String) (classes : String → ClassInfo) (g : Glob) (h : List (Act V))
    (hon : Spec.last Spec.givesTalib false h = true) (c : Call V) (inner inner' : View V → Body V)
    (hv : ∀ v, v.talib = true → inner v = inner' v) :
    ((Lib.init g).acts low classes h).call low classes c inner =
      ((Lib.init g).acts low classes h).call low classes c inner' := by
  have h2 : ((Lib.init g).acts low classes h).talib = Spec.last Spec.givesTalib false h := by
    refine Lib.acts_last low classes (fun s => s.talib) Spec.givesTalib (fun _ => True) (fun s a _ _ => ?_) h _
      (Lib.init_inv g) (fun _ _ => trivial)
    cases a <;> first | rfl | (simp only [Lib.act]; split <;> rfl)
  unfold Lib.call
  rw [invoke_flag _ c inner inner' _ (fun v hv' => hv v (hv'.trans ?_))]
  simp [Lib.world, h2, hon, talibFlag]

/-- An indicator which returns its input in ta-lib mode and fails otherwise, called with `_talib=False`: with the setting
on it returns (and not with the setting off). -/
example :
    let classes : String → ClassInfo := fun _ => ⟨["close"], 0, []⟩
    let g : Glob := ⟨0, fun _ => ["close"], fun _ => ["out"]⟩
    let c : Call Nat := ⟨"x", [.series [1, 2, 3]], [("_talib", .bool false)]⟩
    let inner : View Nat → Body Nat := fun v =>
      if v.talib then .ret [("out", Line.ofSeries [4, 5, 6])] else .raise .typeError
    let on : List (Act Nat) := [.talib false, .talib true]
    Spec.last Spec.givesTalib false on = true ∧ Spec.mode true c.kw = false ∧
    (∃ r, ((Lib.init g).acts id classes on).call id classes c inner = .ok r ∧ r.df = false) ∧
    ((Lib.init g).acts (V := Nat) id classes [.talib true, .talib false]).call id classes c inner = .error .typeError ∧
    (∃ r, ((Lib.init g).acts (V := Nat) id classes [.talib true, .ret "x", .retDataframe]).call id classes c inner = .ok r ∧
      r.df = true) := by
  refine ⟨by decide +kernel, by decide +kernel, ⟨_, rfl, rfl⟩, rfl, ⟨_, rfl, rfl⟩⟩

/-- `C114_restore_partial` at work: the columns are changed, looked at, and put back. -/
example (low : String → String) (classes : String → ClassInfo) (g : Glob) (c : Call V) (inner : View V → Body V) :
    (((Lib.init g).acts (V := V) low classes [.inputIndices [("close", .num 4), ("volume", .num 3)], .getInputIndices,
      .talib true, .talib false]).setInputIndices ((Lib.init g).cell 0)).call low classes c inner =
    (Lib.init g).call low classes c inner := by
  refine C114_restore_partial low classes _ (Lib.init_inv g) ?_ _ ?_ ?_ ⟨rfl, rfl, rfl, rfl⟩ c inner
  · simp [Lib.init, Lib.cell, keys, defaultConfig]
  · intro a ha
    simp only [List.mem_cons, List.not_mem_nil, or_false] at ha
    rcases ha with rfl | rfl | rfl | rfl <;> simp [Act.Ok, keys]
  · intro a ha kw hkw n hn
    simp only [List.mem_cons, List.not_mem_nil, or_false] at ha
    subst hkw
    rcases ha with h | h | h | h <;> cases h
    simp only [keys, List.map_cons, List.map_nil, List.mem_cons, List.not_mem_nil, or_false] at hn
    rcases hn with rfl | rfl <;> simp [Lib.init, Lib.cell, keys, defaultConfig]

/-- `C114_restore_partial` and `C114_restore_lost` speak about states which exist: the state after import. -/
example (g : Glob) : (Lib.init g).Inv ∧ (keys ((Lib.init g).cell 0)).Nodup ∧ "adjclose" ∉ keys ((Lib.init g).cell 0) ∧
    "volume" ∈ keys ((Lib.init g).cell 0) := by
  refine ⟨Lib.init_inv g, ?_, ?_, ?_⟩ <;> simp [Lib.init, Lib.cell, keys, defaultConfig]

end Bta.Meta
