import Verif.Meta.ParamsObj
import Verif.Props.Params

/-!
# The parameters of an indicator as attributes, items, dictionary (C100)
-/

set_option linter.unusedSectionVars false
set_option linter.unusedVariables false

open Bta Bta.Meta Py

namespace Spec

/-- The value a call with the keywords `kw` has for a parameter of the class: what was passed, else the default. -/
def paramValue (c : PCls) (kw : Dict String PyVal) (n : String) : Option PyVal :=
  match get? c.params n with
  | none => none
  | some d => some ((get? kw n).getD d)

end Spec

namespace Bta.Meta

theorem ofCall_store (c : PCls) (hc : (keys c.params).Nodup) (kw : Dict String PyVal) (hkw : (keys kw).Nodup) (n : String) :
    get? (ParamsObj.ofCall c kw).store n = Spec.paramValue c kw n := by
  unfold ParamsObj.ofCall Spec.paramValue
  simp only [fromKwargs]
  have hf : get? (kw.filter (fun p => (get? c.params p.1).isSome)).reverse n =
      if (get? c.params n).isSome then get? kw n else none := by
    rw [get?_reverse, get?_filter (q := fun n => (get? c.params n).isSome)]
    exact List.Nodup.sublist (List.filter_sublist.map Prod.fst) hkw
  rw [get?_update, hf, get?_update, get?_reverse hc]
  cases hg : get? c.params n with
  | none => simp [get?]
  | some d => cases hk : get? kw n <;> simp [get?]

section
variable (c : PCls) (hc : (keys c.params).Nodup) (kw : Dict String PyVal) (hkw : (keys kw).Nodup)
include hc hkw

/-- **C100** (reading): a declared parameter is read as attribute, as item and by `_get` with the value the call gave it, and is
`in` the object. -/
theorem C100_read {n : String} {v : PyVal} (hn : Spec.paramValue c kw n = some v) (d : PyVal) :
    (ParamsObj.ofCall c kw).getattr n = .ok (.val v) ∧ (ParamsObj.ofCall c kw).getitem n = .ok (.val v) ∧
    (ParamsObj.ofCall c kw).get n d = .val v ∧ (ParamsObj.ofCall c kw).contains n = true := by
  have hs : n ∈ (ParamsObj.ofCall c kw).slots := by
    show n ∈ keys c.params
    rw [mem_keys_iff]
    unfold Spec.paramValue at hn
    cases h : get? c.params n with
    | none => rw [h] at hn; cases hn
    | some d => rfl
  have h1 : (ParamsObj.ofCall c kw).getattr n = .ok (.val v) := by
    unfold ParamsObj.getattr
    rw [if_pos hs, ofCall_store c hc kw hkw, hn]
  refine ⟨h1, ?_, ?_, ?_⟩
  · unfold ParamsObj.getitem; rw [h1]
  · unfold ParamsObj.get; rw [h1]
  · unfold ParamsObj.contains; rw [h1]

theorem slots_value {n : String} (hn : n ∈ keys c.params) : ∃ v, Spec.paramValue c kw n = some v := by
  rw [mem_keys_iff] at hn
  obtain ⟨d, hd⟩ := Option.isSome_iff_exists.mp hn
  exact ⟨_, by unfold Spec.paramValue; rw [hd]⟩

theorem mapM_pairs' (f : String → Except Err PAttr) (l : List String) (hf : ∀ n ∈ l, ∃ v, Spec.paramValue c kw n = some v ∧ f n = .ok (.val v)) :
    ∃ e, l.mapM (fun k => (f k).map (fun a => (k, a))) = .ok e ∧
      List.Forall₂ (fun n q => ∃ v, Spec.paramValue c kw n = some v ∧ q = (n, PAttr.val v)) l e := by
  induction l with
  | nil => exact ⟨[], rfl, .nil⟩
  | cons n l ih =>
    obtain ⟨e, h1, h2⟩ := ih fun m hm => hf m (by simp [hm])
    obtain ⟨v, h3, h4⟩ := hf n (by simp)
    refine ⟨(n, .val v) :: e, ?_, .cons ⟨v, h3, rfl⟩ h2⟩
    rw [List.mapM_cons, h4, h1]
    rfl

/-- **C100** (as a dictionary; partial: no parameter is called `keys`): iteration, `keys()`, `len`, `_items()` and `dict(p)` - and so
`**p` - show exactly the declared parameters, in the order of declaration, with their values. -/
theorem C100_dict_partial (hk : "keys" ∉ keys c.params) :
    (ParamsObj.ofCall c kw).toList = keys c.params ∧ (ParamsObj.ofCall c kw).keysCall = .ok (keys c.params) ∧
    (ParamsObj.ofCall c kw).len = (keys c.params).length ∧
    ∃ e, (ParamsObj.ofCall c kw).toDict = .ok e ∧ (ParamsObj.ofCall c kw).items = .ok e ∧
      List.Forall₂ (fun n q => ∃ v, Spec.paramValue c kw n = some v ∧ q = (n, PAttr.val v)) (keys c.params) e := by
  have hkc : (ParamsObj.ofCall c kw).keysCall = .ok (keys c.params) := by
    unfold ParamsObj.keysCall
    have : (ParamsObj.ofCall c kw).getattr "keys" = .ok .method := by
      unfold ParamsObj.getattr
      rw [if_neg (show "keys" ∉ (ParamsObj.ofCall c kw).slots from hk), if_pos (by simp [paramsMembers])]
    rw [this]
    rfl
  refine ⟨rfl, hkc, rfl, ?_⟩
  obtain ⟨e, h1, h2⟩ := mapM_pairs' c hc kw hkw (ParamsObj.ofCall c kw).getattr (keys c.params) fun n hn => by
    obtain ⟨v, hv⟩ := slots_value c hc kw hkw hn
    exact ⟨v, hv, (C100_read c hc kw hkw hv .none).1⟩
  obtain ⟨e', h1', h2'⟩ := mapM_pairs' c hc kw hkw (ParamsObj.ofCall c kw).getitem (keys c.params) fun n hn => by
    obtain ⟨v, hv⟩ := slots_value c hc kw hkw hn
    exact ⟨v, hv, (C100_read c hc kw hkw hv .none).2.1⟩
  have he : e = e' := by
    clear h1 h1' hkc hk
    generalize keys c.params = l at h2 h2'
    induction h2 generalizing e' with
    | nil => cases h2'; rfl
    | cons h _ ih =>
      cases h2' with
      | cons h' t' =>
        obtain ⟨v, g1, g2⟩ := h
        obtain ⟨v', g1', g2'⟩ := h'
        rw [g1] at g1'
        injection g1' with g1'
        rw [g2, g2', g1', ih _ t']
  refine ⟨e, ?_, h1, h2⟩
  unfold ParamsObj.toDict
  rw [hkc, he]
  exact h1'

/-- **C100** `_values` gives the values in the order of declaration (whatever the parameters are called). -/
theorem C100_values : ∃ vs, (ParamsObj.ofCall c kw).values = .ok vs ∧
    List.Forall₂ (fun n a => ∃ v, Spec.paramValue c kw n = some v ∧ a = PAttr.val v) (keys c.params) vs := by
  have : ∀ l : List String, (∀ n ∈ l, n ∈ keys c.params) → ∃ vs, l.mapM (ParamsObj.ofCall c kw).getattr = .ok vs ∧
      List.Forall₂ (fun n a => ∃ v, Spec.paramValue c kw n = some v ∧ a = PAttr.val v) l vs := by
    intro l
    induction l with
    | nil => exact fun _ => ⟨[], rfl, .nil⟩
    | cons n l ih =>
      intro hl
      obtain ⟨v, hv⟩ := slots_value c hc kw hkw (hl n List.mem_cons_self)
      obtain ⟨vs, h1, h2⟩ := ih fun m hm => hl m (List.mem_cons_of_mem _ hm)
      refine ⟨.val v :: vs, ?_, .cons ⟨v, hv, rfl⟩ h2⟩
      rw [List.mapM_cons, (C100_read c hc kw hkw hv .none).1, h1]
      rfl
  exact this _ fun _ h => h

end

/-- **C100** fails for a parameter called `keys`: it can be read, but the object can not be used as a dictionary. -/
theorem C100_keys_param (c : PCls) (hc : (keys c.params).Nodup) (kw : Dict String PyVal) (hkw : (keys kw).Nodup)
    (hk : "keys" ∈ keys c.params) : (ParamsObj.ofCall c kw).toDict = .error .typeError := by
  obtain ⟨v, hv⟩ := slots_value c hc kw hkw hk
  unfold ParamsObj.toDict ParamsObj.keysCall
  rw [(C100_read c hc kw hkw hv .none).1]
  rfl

/-- **C100** (unknown names): a name which is neither declared nor a method of the object is not in it, is an AttributeError as
attribute and a KeyError as item, and `_get` gives the default. -/
theorem C100_unknown (p : ParamsObj) {n : String} (h1 : n ∉ p.slots) (h2 : n ∉ paramsMembers) (d : PyVal) :
    p.contains n = false ∧ p.getattr n = .error .attributeError ∧ p.getitem n = .error .keyError ∧ p.get n d = .val d := by
  have h : p.getattr n = .error .attributeError := by
    unfold ParamsObj.getattr; rw [if_neg h1, if_neg h2]
  exact ⟨by unfold ParamsObj.contains; rw [h], h, by unfold ParamsObj.getitem; rw [h], by unfold ParamsObj.get; rw [h]⟩

/-- **C100** fails for the names of methods: `'keys' in p` and the like are true, and the item is a method, although no parameter
has this name. -/
theorem C100_methods (p : ParamsObj) {n : String} (h1 : n ∉ p.slots) (h2 : n ∈ paramsMembers) :
    n ∉ p.toList ∧ p.contains n = true ∧ p.getitem n = .ok .method := by
  have h : p.getattr n = .ok .method := by
    unfold ParamsObj.getattr; rw [if_neg h1, if_pos h2]
  exact ⟨h1, by unfold ParamsObj.contains; rw [h], by unfold ParamsObj.getitem; rw [h]⟩

/-- **C100** (setting): exactly the declared parameters can be set; the others keep their values, and the keys stay. -/
theorem C100_set (p : ParamsObj) (n : String) (v : PyVal) :
    (n ∉ p.slots → p.setattr n v = .error .attributeError) ∧
    (n ∈ p.slots → ∃ p', p.setattr n v = .ok p' ∧ p'.toList = p.toList ∧ p'.getattr n = .ok (.val v) ∧
      ∀ m, m ≠ n → p'.getattr m = p.getattr m) := by
  constructor
  · intro h; unfold ParamsObj.setattr; rw [if_neg h]
  · intro h
    refine ⟨⟨p.slots, Py.set p.store n v⟩, by unfold ParamsObj.setattr; rw [if_pos h], rfl, ?_, fun m hm => ?_⟩
    · unfold ParamsObj.getattr
      simp only []
      rw [if_pos h, get?_set, if_pos rfl]
    · unfold ParamsObj.getattr
      simp only []
      rw [get?_set, if_neg (Ne.symm hm)]

/-! A class which meets the hypotheses. -/

def someParams : PCls := ⟨[("period", .int 30), ("_ma", .obj 7)], []⟩

example : ∃ e, (ParamsObj.ofCall someParams [("period", .int 5)]).toDict = .ok e ∧
    List.Forall₂ (fun n q => ∃ v, Spec.paramValue someParams [("period", .int 5)] n = some v ∧ q = (n, PAttr.val v))
      ["period", "_ma"] e := by
  obtain ⟨-, -, -, e, h1, -, h2⟩ := C100_dict_partial someParams (by simp [someParams, keys]) [("period", .int 5)]
    (by simp [keys]) (by simp [someParams, keys])
  exact ⟨e, h1, h2⟩

example : Spec.paramValue someParams [("period", .int 5)] "period" = some (.int 5) := rfl

example : (ParamsObj.ofCall someParams [("period", .int 5)]).values = .ok [.val (.int 5), .val (.obj 7)] := rfl

example : (ParamsObj.ofCall ⟨[("keys", .int 1)], []⟩ []).toDict = .error .typeError :=
  C100_keys_param ⟨[("keys", .int 1)], []⟩ (by simp [keys]) [] (by simp [keys]) (by simp [keys])

example : (ParamsObj.ofCall someParams []).contains "_update" = true :=
  (C100_methods _ (by simp [someParams, ParamsObj.ofCall, keys]) (by simp [paramsMembers])).2.1

end Bta.Meta
