import Verif.Meta.Names

/-!
# C123: reading results, and the names of the Series
-/

namespace Bta.Names

variable {V : Type}

/-! ## Specification -/

/-- The lines which a step reads, in order. -/
def _root_.Spec.reads : Op V → List Nat
  | .read l => [l]
  | .iter ls => ls
  | .df _ ls => ls
  | _ => []

/-- One of the steps reads a line named `n` which refers to the Series `r`. -/
def _root_.Spec.ReadAs (st : State V) (ops : List (Op V)) (r : Nat) (n : String) : Prop :=
  ∃ l, (∃ op ∈ ops, l ∈ Spec.reads op) ∧ (st.run ops).lines[l]? = some ⟨r, n⟩

/-- Series and lines are never removed, lines never changed, values never written. -/
structure _root_.Spec.Kept (st st' : State V) : Prop where
  values : ∀ (r : Nat) (s : SeriesObj V), st.store[r]? = some s → ∃ s', st'.store[r]? = some s' ∧ s'.values = s.values
  lines : ∀ (l : Nat) (x : LineRef), st.lines[l]? = some x → st'.lines[l]? = some x

/-! ## Lemmas -/

theorem _root_.Spec.Kept.refl (st : State V) : Spec.Kept st st := ⟨fun _ s h => ⟨s, h, rfl⟩, fun _ _ h => h⟩

theorem _root_.Spec.Kept.trans {a b c : State V} (h : Spec.Kept a b) (h' : Spec.Kept b c) : Spec.Kept a c := by
  refine ⟨fun r s hs => ?_, fun l x hx => h'.lines l x (h.lines l x hx)⟩
  obtain ⟨s', h1, h2⟩ := h.values r s hs
  obtain ⟨s'', h3, h4⟩ := h'.values r s' h1
  exact ⟨s'', h3, h4.trans h2⟩

theorem rename_get (st : List (SeriesObj V)) (r q : Nat) (n : String) :
    (rename st r n)[q]? = if r = q then st[q]?.map (fun s => { s with name := some n }) else st[q]? := by
  rw [rename, List.getElem?_modify]
  split <;> simp_all

theorem read_lines (st : State V) (l : Nat) : (st.read l).lines = st.lines := by
  unfold State.read; split <;> rfl

theorem read_frames (st : State V) (l : Nat) : (st.read l).frames = st.frames := by
  unfold State.read; split <;> rfl

theorem read_kept (st : State V) (l : Nat) : Spec.Kept st (st.read l) := by
  refine ⟨fun r s hs => ?_, fun l x hx => by rwa [read_lines]⟩
  unfold State.read
  split
  · simp only [rename_get]
    split
    · exact ⟨{ s with name := some _ }, by rw [hs]; rfl, rfl⟩
    · exact ⟨s, hs, rfl⟩
  · exact ⟨s, hs, rfl⟩

theorem reads_lines (ls : List Nat) : ∀ st : State V, (ls.foldl State.read st).lines = st.lines := by
  induction ls with
  | nil => intro st; rfl
  | cons l ls ih => intro st; rw [List.foldl_cons, ih, read_lines]

theorem reads_frames (ls : List Nat) : ∀ st : State V, (ls.foldl State.read st).frames = st.frames := by
  induction ls with
  | nil => intro st; rfl
  | cons l ls ih => intro st; rw [List.foldl_cons, ih, read_frames]

theorem reads_kept (ls : List Nat) : ∀ st : State V, Spec.Kept st (ls.foldl State.read st) := by
  induction ls with
  | nil => intro st; exact Spec.Kept.refl st
  | cons l ls ih => intro st; exact (read_kept st l).trans (ih _)

theorem getElem?_append_some {α : Type} {l l' : List α} {i : Nat} {x : α} (h : l[i]? = some x) : (l ++ l')[i]? = some x := by
  rw [List.getElem?_append_left (List.getElem?_eq_some_iff.1 h).1, h]

theorem step_kept (st : State V) (op : Op V) : Spec.Kept st (st.step op) := by
  cases op with
  | input s n => exact ⟨fun r s h => ⟨s, h, rfl⟩, fun l x h => getElem?_append_some h⟩
  | share l n =>
    simp only [State.step]
    split
    · exact ⟨fun r s h => ⟨s, h, rfl⟩, fun l x h => getElem?_append_some h⟩
    · exact Spec.Kept.refl st
  | fresh s => exact ⟨fun r s h => ⟨s, getElem?_append_some h, rfl⟩, fun l x h => getElem?_append_some h⟩
  | read l => exact read_kept st l
  | iter ls => exact reads_kept ls st
  | df i ls =>
    simp only [State.step]
    split
    · exact Spec.Kept.refl st
    · exact ⟨(reads_kept ls st).values, (reads_kept ls st).lines⟩

theorem run_cons (st : State V) (op : Op V) (ops : List (Op V)) : st.run (op :: ops) = (st.step op).run ops := rfl

theorem run_append (st : State V) (a b : List (Op V)) : st.run (a ++ b) = (st.run a).run b := by
  simp [State.run, List.foldl_append]

theorem run_kept (ops : List (Op V)) : ∀ st : State V, Spec.Kept st (st.run ops) := by
  induction ops with
  | nil => intro st; exact Spec.Kept.refl st
  | cons op ops ih => intro st; rw [run_cons]; exact (step_kept st op).trans (ih _)

/-- the name of a Series after some lines have been read -/
theorem reads_name (ls : List Nat) : ∀ (st : State V) (r : Nat) (s s' : SeriesObj V), st.store[r]? = some s →
    (ls.foldl State.read st).store[r]? = some s' →
    s'.name = s.name ∨ ∃ l ∈ ls, ∃ n, st.lines[l]? = some ⟨r, n⟩ ∧ s'.name = some n := by
  induction ls with
  | nil => intro st r s s' h h'; rw [List.foldl_nil, h] at h'; cases h'; exact Or.inl rfl
  | cons l ls ih =>
    intro st r s s' h h'
    obtain ⟨s1, h1, _⟩ := (read_kept st l).values r s h
    rcases ih (st.read l) r s1 s' h1 h' with h2 | ⟨m, hm, n, h2, h3⟩
    · rw [h2]
      unfold State.read at h1
      split at h1
      · next x hx =>
        simp only [rename_get] at h1
        split at h1
        · next hr =>
          rw [h] at h1
          cases h1
          subst hr
          exact Or.inr ⟨l, by simp, x.name, hx, rfl⟩
        · rw [h] at h1; cases h1; exact Or.inl rfl
      · rw [h] at h1; cases h1; exact Or.inl rfl
    · rw [read_lines] at h2
      exact Or.inr ⟨m, by simp [hm], n, h2, h3⟩

theorem step_name (st : State V) (op : Op V) (r : Nat) (s s' : SeriesObj V) (h : st.store[r]? = some s)
    (h' : (st.step op).store[r]? = some s') :
    s'.name = s.name ∨ ∃ l ∈ Spec.reads op, ∃ n, st.lines[l]? = some ⟨r, n⟩ ∧ s'.name = some n := by
  cases op with
  | input q n => left; have h' : st.store[r]? = some s' := h'; rw [h] at h'; cases h'; rfl
  | share l n =>
    left
    simp only [State.step] at h'
    split at h' <;> (have h' : st.store[r]? = some s' := h'; rw [h] at h'; cases h'; rfl)
  | fresh q =>
    left
    have h' : (st.store ++ [q])[r]? = some s' := h'
    rw [getElem?_append_some h] at h'; cases h'; rfl
  | read l => exact reads_name [l] st r s s' h h'
  | iter ls => exact reads_name ls st r s s' h h'
  | df i ls =>
    simp only [State.step] at h'
    split at h'
    · left; rw [h] at h'; cases h'; rfl
    · exact reads_name ls st r s s' h h'

/-! ## Theorems -/

/-- **C123** Whatever is read, no value of any Series changes: not those of the data, of the results, nor of anything else. -/
theorem C123_values (st : State V) (ops : List (Op V)) (r : Nat) (s : SeriesObj V) (h : st.store[r]? = some s) :
    ∃ s', (st.run ops).store[r]? = some s' ∧ s'.values = s.values := (run_kept ops st).values r s h

/-- **C123** The Series one gets by reading a line has the name of the line and its values. -/
theorem C123_read (st : State V) (l r : Nat) (n : String) (s : SeriesObj V) (hl : st.lines[l]? = some ⟨r, n⟩)
    (hs : st.store[r]? = some s) : (st.step (.read l)).store[r]? = some ⟨some n, s.values⟩ := by
  show (st.read l).store[r]? = _
  unfold State.read
  rw [hl]
  simp only [rename_get, if_true, hs]
  rfl

/-- **C123** The name of a Series only changes to the name of a line which refers to it and is read. -/
theorem C123_name_partial (ops : List (Op V)) : ∀ (st : State V) (r : Nat) (s s' : SeriesObj V), st.store[r]? = some s →
    (st.run ops).store[r]? = some s' → s'.name = s.name ∨ ∃ n, s'.name = some n ∧ Spec.ReadAs st ops r n := by
  induction ops with
  | nil => intro st r s s' h h'; have h' : st.store[r]? = some s' := h'; rw [h] at h'; cases h'; exact Or.inl rfl
  | cons op ops ih =>
    intro st r s s' h h'
    obtain ⟨s1, h1, _⟩ := (step_kept st op).values r s h
    rcases ih (st.step op) r s1 s' h1 h' with h2 | ⟨n, h2, l, ⟨o, ho, hlo⟩, hx⟩
    · rcases step_name st op r s s1 h h1 with h3 | ⟨l, hl, n, hx, h3⟩
      · exact Or.inl (h2.trans h3)
      · exact Or.inr ⟨n, h2.trans h3, l, ⟨op, by simp, hl⟩, (run_kept (op :: ops) st).lines l _ hx⟩
    · exact Or.inr ⟨n, h2, l, ⟨o, by simp [ho], hlo⟩, hx⟩

/-- **C123** does not hold for the data of the caller: reading an input of an indicator gives the caller's Series the name
of the input. -/
theorem C123_not_caller (st : State V) (r : Nat) (n : String) (s : SeriesObj V) (hs : st.store[r]? = some s)
    (hn : s.name ≠ some n) :
    ∃ s', (st.run [.input r n, .read st.lines.length]).store[r]? = some s' ∧ s'.name = some n ∧ s'.name ≠ s.name := by
  refine ⟨⟨some n, s.values⟩, ?_, rfl, fun h => hn h.symm⟩
  exact C123_read (st.step (.input r n)) st.lines.length r n s (by simp [State.step]) hs

/-- **C123** does not hold for lines which share a Series: the Series read from the first one is renamed by reading the second. -/
theorem C123_not_shared (st : State V) (l r : Nat) (n m : String) (s : SeriesObj V) (hl : st.lines[l]? = some ⟨r, n⟩)
    (hs : st.store[r]? = some s) :
    let st1 := st.run [.share l m, .read l]
    st1.store[r]?.map SeriesObj.name = some (some n) ∧
      (st1.run [.read st.lines.length]).store[r]?.map SeriesObj.name = some (some m) := by
  intro st1
  have h0 : st.step (.share l m) = { st with lines := st.lines ++ [⟨r, m⟩] } := by simp [State.step, hl]
  have hl' : (st.step (.share l m)).lines[l]? = some ⟨r, n⟩ := (step_kept st (.share l m)).lines l _ hl
  have hm' : (st.step (.share l m)).lines[st.lines.length]? = some ⟨r, m⟩ := by rw [h0]; simp
  have hs' : (st.step (.share l m)).store[r]? = some s := by rw [h0]; exact hs
  have h1 := C123_read _ l r n s hl' hs'
  refine ⟨by show ((st.step (.share l m)).step (.read l)).store[r]?.map _ = _; rw [h1]; rfl, ?_⟩
  have h2 := C123_read ((st.step (.share l m)).step (.read l)) st.lines.length r m _
    ((step_kept _ (.read l)).lines _ _ hm') h1
  show (((st.step (.share l m)).step (.read l)).step (.read st.lines.length)).store[r]?.map _ = _
  rw [h2]
  rfl

/-- the frame is built when it is first asked for and kept -/
theorem frame_mono (st : State V) (op : Op V) (i : Nat) (f : List (String × List V)) (h : st.frame i = some f) :
    (st.step op).frame i = some f := by
  have key : ∀ fr, (∃ e, fr = st.frames ++ e) → ((fr.find? (fun f => f.1 == i)).map (·.2)) = some f := by
    rintro _ ⟨e, rfl⟩
    unfold State.frame at h
    rw [List.find?_append]
    cases hf : st.frames.find? (fun f => f.1 == i) with
    | none => rw [hf] at h; cases h
    | some q => rw [hf] at h; exact h
  apply key
  cases op with
  | input => exact ⟨[], (List.append_nil _).symm⟩
  | share => simp only [State.step]; split <;> exact ⟨[], (List.append_nil _).symm⟩
  | fresh => exact ⟨[], (List.append_nil _).symm⟩
  | read l => exact ⟨[], by rw [List.append_nil]; exact read_frames st l⟩
  | iter ls => exact ⟨[], by rw [List.append_nil]; exact reads_frames ls st⟩
  | df j ls =>
    simp only [State.step]
    split
    · exact ⟨[], (List.append_nil _).symm⟩
    · exact ⟨_, by simp only [reads_frames]; rfl⟩

/-- **C123** `ind.df` has a column for each output, under its name and with its values, even if outputs share a Series, and stays
what it was when it was first asked for. -/
theorem C123_frame (st : State V) (i : Nat) (ls : List Nat) (h : st.frame i = none) (ops : List (Op V)) :
    ((st.step (.df i ls)).run ops).frame i = some (ls.map (fun l => (st.lineName l, st.values l))) := by
  have h0 : (st.step (.df i ls)).frame i = some (ls.map (fun l => (st.lineName l, st.values l))) := by
    have hf : st.frames.find? (fun f => f.1 == i) = none := by
      unfold State.frame at h
      cases hq : st.frames.find? (fun f => f.1 == i) with
      | none => rfl
      | some q => rw [hq] at h; cases h
    simp only [State.step, State.frame]
    simp only [hf, reads_frames, List.find?_append, Option.none_or]
    have hm : ∀ l, (ls.foldl State.read st).lineName l = st.lineName l := by
      intro l; unfold State.lineName; rw [reads_lines]
    have hv : ∀ l, (ls.foldl State.read st).values l = st.values l := by
      intro l
      unfold State.values
      rw [reads_lines]
      cases hx : st.lines[l]? with
      | none => rfl
      | some x =>
        simp only
        cases hs : st.store[x.ref]? with
        | some s =>
          obtain ⟨s', h1, h2⟩ := (reads_kept ls st).values _ _ hs
          rw [h1]; simp [h2]
        | none =>
          have : ∀ (ls : List Nat) (q : State V), q.store[x.ref]? = none → (ls.foldl State.read q).store[x.ref]? = none := by
            intro ls
            induction ls with
            | nil => intro q hq; exact hq
            | cons m ls ih =>
              intro q hq
              refine ih _ ?_
              unfold State.read
              split
              · simp only [rename_get]
                split <;> simp [hq]
              · exact hq
          rw [this ls st hs]
    simp [hm, hv]
  induction ops generalizing st with
  | nil => exact h0
  | cons op ops ih =>
    rw [run_cons]
    clear ih
    have key : ∀ (ops : List (Op V)) (q : State V) f, q.frame i = some f → (q.run ops).frame i = some f := by
      intro ops
      induction ops with
      | nil => intro q f hq; exact hq
      | cons o ops ih => intro q f hq; rw [run_cons]; exact ih _ f (frame_mono q o i f hq)
    exact key ops _ _ (frame_mono _ op i _ h0)

/-! ## Concrete cases -/

/-- a Series of the caller called `AAPL`, given as `close`; an indicator with two outputs which share a Series -/
def st0 : State Nat := (⟨[⟨some "AAPL", [1, 2, 3]⟩], [], []⟩ : State Nat).run
  [.input 0 "close", .fresh ⟨none, [7, 8, 9]⟩, .share 1 "k", .share 1 "d"]

example : st0.lines = [⟨0, "close"⟩, ⟨1, ""⟩, ⟨1, "k"⟩, ⟨1, "d"⟩] := by decide

/-- the caller's Series is renamed -/
example : (st0.run [.read 0]).store.map SeriesObj.name = [some "close", none] := by decide

/-- the frame has both names, and the Series has the last one -/
example : (st0.run [.df 0 [2, 3]]).frame 0 = some [("k", [7, 8, 9]), ("d", [7, 8, 9])] ∧
    (st0.run [.df 0 [2, 3]]).store.map SeriesObj.name = [some "AAPL", some "d"] := by decide

example : Spec.ReadAs st0 [.df 0 [2, 3]] 1 "d" := ⟨3, ⟨_, List.Mem.head _, by simp [Spec.reads]⟩, by decide⟩

end Bta.Names
