import Verif.Library
import Verif.MaterialProps
import Verif.FormulaProps
import Verif.ElementProps
import Mathlib.Tactic.Ring
import Mathlib.Tactic.Linarith
import Mathlib.Tactic.FieldSimp
import Mathlib.Tactic.Positivity

/-!
# The element and material library: C24, C25, C26
-/

set_option linter.unusedSectionVars false

namespace Fisx.Library

open Outcome

variable {K : Type} [Field K] [LinearOrder K] [IsStrictOrderedRing K] [Trans K] [Trig K]

/-! ### C24: specification -/

/-- The names given to `addElement`, in order. -/
def addedNames : List (Op K) → List String
  | [] => []
  | .addElement e :: rest => e.name :: addedNames rest
  | _ :: rest => addedNames rest

/-- A list without repetitions, in the order of the first occurrences. -/
def firstOccurrences : List String → List String
  | [] => []
  | n :: rest => n :: (firstOccurrences rest).filter (· ≠ n)

/-- What one call does to the map from names to elements. -/
def specStep (f : String → Option (LibElement K)) : Op K → String → Option (LibElement K)
  | .addElement e => Function.update f e.name (some e)
  | .onElement n op => if n = "" then f else
      Function.update f n ((f n).map (fun e => { e with data := (e.data.step op).2 }))
  | _ => f

/-- The map from names to elements after a history. -/
def spec (ops : List (Op K)) : String → Option (LibElement K) := ops.foldl specStep (fun _ => none)

/-! ### C24: the invariant -/

/-- The dictionary gives the positions of the names. -/
def Inv (L : Library K) : Prop :=
  ∀ n i, L.dict.find? n = some i ↔ L.getElementNames[i]? = some n

theorem inv_empty (on : Bool) (key : EscapeKey K) : Inv (empty on key : Library K) := by
  intro n i
  simp [empty, getElementNames]

theorem length_zero_iff (n : String) : n.length = 0 ↔ n = "" := by
  rw [← String.length_toList, List.length_eq_zero_iff, String.toList_eq_nil_iff]

/-- The elements are not touched. -/
def SameElements (L M : Library K) : Prop := M.dict = L.dict ∧ M.elements = L.elements

theorem SameElements.refl (L : Library K) : SameElements L L := ⟨rfl, rfl⟩

theorem SameElements.trans {A B C : Library K} (h : SameElements A B) (h' : SameElements B C) : SameElements A C :=
  ⟨h'.1.trans h.1, h'.2.trans h.2⟩

/-- The materials are not touched. -/
theorem updateEscapeLoop_frame (pf : String → Outcome (SMap String K)) (fuel : Nat) (key : EscapeKey K) :
    ∀ (es : List K) (L : Library K), SameElements L (updateEscapeLoop pf fuel key es L).2
      ∧ (updateEscapeLoop pf fuel key es L).2.materials = L.materials := by
  intro es
  induction es with
  | nil => intro L; exact ⟨SameElements.refl L, rfl⟩
  | cons x rest ih =>
    intro L
    unfold updateEscapeLoop
    split
    · have := ih { L with escapeKey := key }
      exact ⟨⟨this.1.1, this.1.2⟩, this.2⟩
    · split
      · rename_i r _
        have := ih { L with escape := L.escape.insert x r, escapeKey := key }
        exact ⟨⟨this.1.1, this.1.2⟩, this.2⟩
      all_goals exact ⟨SameElements.refl L, rfl⟩

theorem setMaterialCompositionMap_same (L : Library K) (n : String) (c : SMap String K) :
    SameElements L (L.setMaterialCompositionMap n c).2 := by
  unfold setMaterialCompositionMap
  dsimp only
  split <;> exact ⟨rfl, rfl⟩

theorem removeMaterial_same (L : Library K) (n : String) : SameElements L (L.removeMaterial n).2 := by
  unfold removeMaterial
  dsimp only
  split <;> exact ⟨rfl, rfl⟩

theorem makeRoom_same (L : Library K) (n : String) (f : Bool) : SameElements L (L.makeRoom n f).2 := by
  unfold makeRoom
  split
  · split
    · exact SameElements.refl L
    · exact removeMaterial_same L n
  · exact SameElements.refl L

theorem addMaterial_same (pf : String → Outcome (SMap String K)) (L : Library K) (n : String) (d t : K) (c : String)
    (f : Bool) : SameElements L (L.addMaterial pf n d t c f).2 := by
  unfold addMaterial
  have h := makeRoom_same L n f
  split
  · rename_i L' heq
    rw [heq] at h
    split
    · rename_i m _
      dsimp only
      have h' : SameElements L' { L' with materials := L'.materials ++ [m] } := ⟨rfl, rfl⟩
      split
      · split
        · exact (h.trans h').trans (setMaterialCompositionMap_same _ _ _)
        · exact h.trans h'
      all_goals exact h.trans h'
    · exact h
  · rename_i heq
    rw [heq] at h
    exact h

/-- Calls on materials and on the escape cache leave the elements as they are. -/
theorem step_same (pf : String → Outcome (SMap String K)) (fuel : Nat) (L : Library K) (op : Op K)
    (h1 : ∀ e, op ≠ .addElement e) (h2 : ∀ n o, op ≠ .onElement n o) : SameElements L (L.step pf fuel op).2 := by
  cases op with
  | addElement e => exact absurd rfl (h1 e)
  | onElement n o => exact absurd rfl (h2 n o)
  | addMaterialObject m f =>
    simp only [step, addMaterialObject]
    split
    · split <;> exact ⟨rfl, rfl⟩
    · exact ⟨rfl, rfl⟩
  | addMaterial n d t c f => exact addMaterial_same pf L n d t c f
  | removeMaterial n => exact removeMaterial_same L n
  | removeMaterials => exact ⟨rfl, rfl⟩
  | setMaterialComposition n ns as =>
    simp only [step, setMaterialComposition]
    split <;> exact ⟨rfl, rfl⟩
  | setMaterialCompositionMap n c => exact setMaterialCompositionMap_same L n c
  | setEscapeCacheEnabled f => exact ⟨rfl, rfl⟩
  | clearEscapeCache => exact ⟨rfl, rfl⟩
  | updateEscapeCache k es =>
    simp only [step, updateEscapeCache]
    refine SameElements.trans ?_ (updateEscapeLoop_frame pf fuel k es _).1
    split <;> exact ⟨rfl, rfl⟩

/-- The state described by the specification. -/
structure Agrees (L : Library K) (names : List String) (f : String → Option (LibElement K)) : Prop where
  inv : Inv L
  nodup : names.Nodup
  names_eq : L.getElementNames = names
  find : ∀ n, f n = (L.dict.find? n).bind (fun i => L.elements[i]?)

theorem firstOccurrences_append (l : List String) (n : String) :
    firstOccurrences (l ++ [n]) = if n ∈ l then firstOccurrences l else firstOccurrences l ++ [n] := by
  induction l with
  | nil => simp [firstOccurrences]
  | cons a l ih =>
    simp only [List.cons_append, firstOccurrences, ih]
    by_cases h : n ∈ l
    · simp [h]
    · by_cases ha : n = a
      · subst ha
        simp [h]
      · simp [h, ha]

theorem mem_firstOccurrences (l : List String) (n : String) : n ∈ firstOccurrences l ↔ n ∈ l := by
  induction l with
  | nil => simp [firstOccurrences]
  | cons a l ih =>
    simp only [firstOccurrences, List.mem_cons, List.mem_filter, ih]
    by_cases h : n = a <;> simp [h]

theorem nodup_firstOccurrences (l : List String) : (firstOccurrences l).Nodup := by
  induction l with
  | nil => simp [firstOccurrences]
  | cons a l ih =>
    simp only [firstOccurrences, List.nodup_cons, List.mem_filter]
    exact ⟨by simp, ih.filter _⟩

theorem addedNames_append (a b : List (Op K)) : addedNames (a ++ b) = addedNames a ++ addedNames b := by
  induction a with
  | nil => rfl
  | cons o a ih => cases o <;> simp [addedNames, ih]

theorem spec_append (a : List (Op K)) (o : Op K) : spec (a ++ [o]) = specStep (spec a) o := by
  simp [spec, List.foldl_append]

theorem run_append (pf : String → Outcome (SMap String K)) (fuel : Nat) (L : Library K) (a b : List (Op K)) :
    run pf fuel L (a ++ b) = run pf fuel (run pf fuel L a) b := by
  simp [run, List.foldl_append]

theorem run_snoc (pf : String → Outcome (SMap String K)) (fuel : Nat) (L : Library K) (a : List (Op K)) (o : Op K) :
    run pf fuel L (a ++ [o]) = ((run pf fuel L a).step pf fuel o).2 := by
  simp [run, List.foldl_append]

theorem agrees_set (L : Library K) (names : List String) (f : String → Option (LibElement K)) (h : Agrees L names f)
    (e : LibElement K) (i : Nat) (hi : L.dict.find? e.name = some i) :
    Agrees { L with elements := L.elements.set i e } names (Function.update f e.name (some e)) := by
  have hn : (L.elements.set i e).map LibElement.name = L.elements.map LibElement.name := by
    rw [List.map_set]
    apply List.ext_getElem?
    intro j
    rw [List.getElem?_set]
    by_cases hj : i = j
    · subst hj
      have := (h.inv e.name i).1 hi
      unfold getElementNames at this
      rw [if_pos rfl]
      split
      · exact this.symm
      · rename_i hlt
        rw [List.getElem?_eq_none (by simpa using hlt)]
    · rw [if_neg hj]
  refine ⟨?_, h.nodup, ?_, ?_⟩
  · intro n j
    show L.dict.find? n = some j ↔ (List.map LibElement.name (L.elements.set i e))[j]? = some n
    rw [hn]
    exact h.inv n j
  · show List.map LibElement.name (L.elements.set i e) = names
    rw [hn]
    exact h.names_eq
  · intro n
    show _ = (L.dict.find? n).bind (fun j => (L.elements.set i e)[j]?)
    by_cases hne : n = e.name
    · subst hne
      rw [Function.update_self, hi]
      have hlt : i < L.elements.length := by
        have := (h.inv e.name i).1 hi
        unfold getElementNames at this
        have := (List.getElem?_eq_some_iff.1 this).1
        simpa using this
      simp [hlt]
    · rw [Function.update_of_ne hne, h.find n]
      cases hf : L.dict.find? n with
      | none => rfl
      | some j =>
        have hij : i ≠ j := by
          intro hij
          subst hij
          have h1 := (h.inv _ _).1 hi
          have h2 := (h.inv _ _).1 hf
          rw [h1] at h2
          injection h2 with h2
          exact hne h2.symm
        simp [List.getElem?_set_ne hij]

theorem agrees_step (pf : String → Outcome (SMap String K)) (fuel : Nat) (L : Library K) (l : List String)
    (f : String → Option (LibElement K)) (h : Agrees L (firstOccurrences l) f) (op : Op K) :
    Agrees (L.step pf fuel op).2 (firstOccurrences (l ++ addedNames [op])) (specStep f op) := by
  by_cases h1 : ∃ e, op = .addElement e
  · obtain ⟨e, rfl⟩ := h1
    simp only [step, addElement, addedNames, specStep, firstOccurrences_append]
    have hmem : e.name ∈ l ↔ ∃ i, L.dict.find? e.name = some i := by
      rw [← mem_firstOccurrences, ← h.names_eq, List.mem_iff_getElem?]
      exact exists_congr (fun i => (h.inv e.name i).symm)
    split
    · rename_i i hi
      have hlt : i < L.elements.length := by
        have := (h.inv e.name i).1 hi
        unfold getElementNames at this
        have := (List.getElem?_eq_some_iff.1 this).1
        simpa using this
      rw [if_pos hlt, if_pos (hmem.2 ⟨i, hi⟩)]
      exact agrees_set L _ f h e i hi
    · rename_i hnone
      have hnot : e.name ∉ l := by
        rw [hmem]
        rintro ⟨i, hi⟩
        rw [hnone] at hi
        cases hi
      rw [if_neg hnot]
      have hnn : e.name ∉ L.elements.map LibElement.name := by
        have := h.names_eq
        unfold getElementNames at this
        rw [this, mem_firstOccurrences]
        exact hnot
      refine ⟨?_, ?_, ?_, ?_⟩
      · intro n i
        show (L.dict.insert e.name L.elements.length).find? n = some i
          ↔ (List.map LibElement.name (L.elements ++ [e]))[i]? = some n
        rw [SMap.find?_insert]
        have hinv := h.inv n i
        unfold getElementNames at hinv
        by_cases hne : n = e.name
        · subst hne
          rw [if_pos rfl]
          constructor
          · intro hi
            injection hi with hi
            subst hi
            simp
          · intro hi
            by_contra hc
            have hc' : i ≠ L.elements.length := fun h => hc (by rw [h])
            rw [List.map_append, List.getElem?_append] at hi
            split at hi
            · exact hnn (List.mem_of_getElem? hi)
            · rename_i hlt
              simp only [List.length_map, not_lt] at hlt
              rw [List.getElem?_eq_none (by simp; omega)] at hi
              cases hi
        · rw [if_neg (fun hh => hne hh.symm), hinv, List.map_append, List.getElem?_append]
          split
          · exact Iff.rfl
          · rename_i hlt
            simp only [List.length_map, not_lt] at hlt
            rw [List.getElem?_eq_none (by simpa using hlt)]
            constructor
            · intro hh; cases hh
            · intro hh
              have hmem' := List.mem_of_getElem? hh
              simp only [List.map_cons, List.map_nil, List.mem_singleton] at hmem'
              exact absurd hmem' hne
      · rw [List.nodup_append]
        refine ⟨h.nodup, by simp, ?_⟩
        intro a ha b hb hab
        simp only [List.mem_singleton] at hb
        subst hb hab
        exact hnot ((mem_firstOccurrences _ _).1 ha)
      · show List.map LibElement.name (L.elements ++ [e]) = _
        rw [List.map_append]
        have := h.names_eq
        unfold getElementNames at this
        rw [this]
        rfl
      · intro n
        show _ = ((L.dict.insert e.name L.elements.length).find? n).bind (fun i => (L.elements ++ [e])[i]?)
        rw [SMap.find?_insert]
        by_cases hne : n = e.name
        · subst hne
          rw [Function.update_self, if_pos rfl]
          simp
        · rw [Function.update_of_ne hne, if_neg (fun hh => hne hh.symm), h.find n]
          cases hf : L.dict.find? n with
          | none => rfl
          | some i =>
            have := (h.inv n i).1 hf
            unfold getElementNames at this
            have := (List.getElem?_eq_some_iff.1 this).1
            simp only [List.length_map] at this
            simp [List.getElem?_append_left this]
  · by_cases h2 : ∃ n o, op = .onElement n o
    · obtain ⟨n, o, rfl⟩ := h2
      simp only [step, onElement, addedNames, List.append_nil, specStep, isElementNameDefined, length_zero_iff]
      by_cases hn : n = ""
      · subst hn
        simpa using h
      · rw [if_neg hn, if_neg hn]
        cases hf : L.dict.find? n with
        | none =>
          rw [if_neg (by simp [SMap.mem, hf])]
          have : f n = none := by rw [h.find, hf]; rfl
          rw [this]
          refine ⟨h.inv, h.nodup, h.names_eq, ?_⟩
          intro n'
          by_cases hne : n' = n
          · subst hne
            rw [Function.update_self, hf]
            rfl
          · rw [Function.update_of_ne hne, h.find]
        | some i =>
          rw [if_pos (by simp [SMap.mem, hf])]
          have hinv := (h.inv n i).1 hf
          unfold getElementNames at hinv
          have hlt := (List.getElem?_eq_some_iff.1 hinv).1
          simp only [List.length_map] at hlt
          have he : L.elements[i]? = some L.elements[i] := List.getElem?_eq_getElem hlt
          dsimp only
          split
          · rename_i e hee
            have hen : e.name = n := by
              rw [List.getElem?_map, hee] at hinv
              injection hinv
            have hfn : f n = some e := by rw [h.find, hf]; exact hee
            rw [hfn]
            have := agrees_set L _ f h { e with data := (e.data.step o).2 } i (by dsimp only; rw [hen]; exact hf)
            subst hen
            exact this
          · rename_i hee
            rw [he] at hee
            cases hee
    · have hs := step_same pf fuel L op (fun e he => h1 ⟨e, he⟩) (fun n o ho => h2 ⟨n, o, ho⟩)
      have hadd : addedNames [op] = [] := by
        cases op <;> first | rfl | exact absurd ⟨_, rfl⟩ h1
      have hspec : specStep f op = f := by
        cases op <;> first | rfl | exact absurd ⟨_, rfl⟩ h1 | exact absurd ⟨_, _, rfl⟩ h2
      rw [hadd, hspec, List.append_nil]
      obtain ⟨hd, he⟩ := hs
      refine ⟨?_, h.nodup, ?_, ?_⟩
      · intro n i
        unfold getElementNames
        rw [hd, he]
        exact h.inv n i
      · unfold getElementNames
        rw [he]
        exact h.names_eq
      · intro n
        rw [hd, he]
        exact h.find n

theorem agrees_run (pf : String → Outcome (SMap String K)) (fuel : Nat) (on : Bool) (key : EscapeKey K)
    (ops : List (Op K)) :
    Agrees (run pf fuel (empty on key) ops) (firstOccurrences (addedNames ops)) (spec ops) := by
  induction ops using List.reverseRecOn with
  | nil => exact ⟨inv_empty on key, by simp [addedNames, firstOccurrences], rfl, fun n => rfl⟩
  | append_singleton ops o ih =>
    rw [run_snoc, addedNames_append, spec_append]
    exact agrees_step pf fuel _ _ _ ih o

theorem inv_run (pf : String → Outcome (SMap String K)) (fuel : Nat) (on : Bool) (key : EscapeKey K)
    (ops : List (Op K)) : Inv (run pf fuel (empty on key) ops) := (agrees_run pf fuel on key ops).inv

/-- An element or an exception. -/
def orThrow (x : Option (LibElement K)) : Outcome (LibElement K) :=
  match x with
  | some e => .ok e
  | none => .throw .invalidArgument

/-- C24: after every history of calls (on elements, materials, caches; failed ones included) the library of elements
is the map described by the specification: the names are those added, each once, in the order of their first addition;
`getElement` returns the element last added with the name (with the calls later forwarded to it) and throws for a name
that was not added; an element with an empty name is never found. -/
theorem C24_library_is_a_map (pf : String → Outcome (SMap String K)) (fuel : Nat) (on : Bool) (key : EscapeKey K)
    (ops : List (Op K)) :
    (run pf fuel (empty on key) ops).getElementNames = firstOccurrences (addedNames ops)
      ∧ (run pf fuel (empty on key) ops).getElementNames.Nodup
      ∧ (∀ n, (run pf fuel (empty on key) ops).isElementNameDefined n = true ↔ n ≠ "" ∧ n ∈ addedNames ops)
      ∧ (∀ n, n ≠ "" → (run pf fuel (empty on key) ops).getElement n = orThrow (spec ops n))
      ∧ (run pf fuel (empty on key) ops).getElement "" = .throw .invalidArgument := by
  have h := agrees_run pf fuel on key ops
  generalize run pf fuel (empty on key) ops = L at h
  have hdef : ∀ n, L.isElementNameDefined n = true ↔ n ≠ "" ∧ n ∈ addedNames ops := by
    intro n
    unfold isElementNameDefined
    rw [← mem_firstOccurrences, ← h.names_eq, List.mem_iff_getElem?]
    by_cases hn : n = ""
    · subst hn
      simp
    · rw [if_neg (by rw [length_zero_iff]; exact hn)]
      simp only [ne_eq, hn, not_false_eq_true, true_and, SMap.mem, Option.isSome_iff_exists]
      exact exists_congr (fun i => h.inv n i)
  refine ⟨h.names_eq, h.names_eq ▸ h.nodup, hdef, ?_, ?_⟩
  · intro n hn
    unfold getElement
    rw [h.find n]
    cases hf : L.dict.find? n with
    | none =>
      rw [if_neg (by unfold isElementNameDefined; rw [if_neg (by rw [length_zero_iff]; exact hn)]; simp [SMap.mem, hf])]
      rfl
    | some i =>
      rw [if_pos (by unfold isElementNameDefined; rw [if_neg (by rw [length_zero_iff]; exact hn)]; simp [SMap.mem, hf])]
      have hinv := (h.inv n i).1 hf
      unfold getElementNames at hinv
      have hlt := (List.getElem?_eq_some_iff.1 hinv).1
      simp only [List.length_map] at hlt
      simp only [Option.bind_some, List.getElem?_eq_getElem hlt]
      exact vget_lt _ _ hlt
  · unfold getElement
    rw [if_neg]
    unfold isElementNameDefined
    simp

/-- The calls that change an element with a name. -/
def touchesElement (n : String) : Op K → Prop
  | .addElement e => e.name = n
  | .onElement m _ => m = n
  | _ => False

/-- C24: the element last added is returned as it was given, whatever is done afterwards with other names. -/
theorem C24_last_added (pf : String → Outcome (SMap String K)) (fuel : Nat) (on : Bool) (key : EscapeKey K)
    (before after : List (Op K)) (e : LibElement K) (hn : e.name ≠ "") (h : ∀ o ∈ after, ¬ touchesElement e.name o) :
    (run pf fuel (empty on key) (before ++ .addElement e :: after)).getElement e.name = .ok e := by
  rw [(C24_library_is_a_map pf fuel on key _).2.2.2.1 e.name hn]
  suffices spec (before ++ .addElement e :: after) e.name = some e by rw [this]; rfl
  induction after using List.reverseRecOn with
  | nil => rw [spec_append]; simp [specStep]
  | append_singleton ops o ih =>
    have h1 : before ++ .addElement e :: (ops ++ [o]) = (before ++ .addElement e :: ops) ++ [o] := by simp
    rw [h1, spec_append]
    have ih := ih (fun o ho => h o (by simp [ho]))
    have ho := h o (by simp)
    cases o with
    | addElement e' =>
      simp only [specStep]
      rw [Function.update_of_ne (fun hh => ho hh.symm)]
      exact ih
    | onElement n' o' =>
      simp only [specStep]
      split
      · exact ih
      · rw [Function.update_of_ne (fun hh => ho hh.symm)]
        exact ih
    | _ => exact ih

/-! ### C25: the materials -/

/-- The first material of a list with a name. -/
def named (l : List (Material K)) (n : String) : Option (Material K) := l.find? (fun m => m.name == n)

/-- Its position. -/
def position (l : List (Material K)) (n : String) : Nat := l.findIdx (fun m => m.name == n)

theorem named_cons (a : Material K) (l : List (Material K)) (n : String) :
    named (a :: l) n = if a.name = n then some a else named l n := by
  unfold named
  by_cases h : a.name = n <;> simp [h]

theorem position_cons (a : Material K) (l : List (Material K)) (n : String) :
    position (a :: l) n = if a.name = n then 0 else position l n + 1 := by
  unfold position
  rw [List.findIdx_cons]
  by_cases h : a.name = n
  · simp [h]
  · rw [if_neg h, beq_eq_false_iff_ne.2 h]
    rfl

theorem named_eq (l : List (Material K)) (n : String) : named l n = l[position l n]? := by
  induction l with
  | nil => rfl
  | cons a l ih =>
    rw [named_cons, position_cons]
    split
    · rfl
    · rw [ih]; rfl

theorem named_name {l : List (Material K)} {n : String} {m : Material K} (h : named l n = some m) : m.name = n := by
  have := List.find?_some h
  simpa using this

theorem named_none_iff (l : List (Material K)) (n : String) : named l n = none ↔ n ∉ l.map Material.name := by
  induction l with
  | nil => simp [named]
  | cons a l ih =>
    rw [named_cons]
    by_cases h : a.name = n
    · simp [h]
    · rw [if_neg h, ih]
      simp [Ne.symm h]

theorem position_lt_iff (l : List (Material K)) (n : String) : position l n < l.length ↔ (named l n).isSome = true := by
  rw [named_eq]
  simp

theorem named_append (l : List (Material K)) (m : Material K) (n : String) :
    named (l ++ [m]) n = (named l n).or (if m.name = n then some m else none) := by
  induction l with
  | nil => simp [named_cons]; unfold named; split <;> rfl
  | cons a l ih =>
    rw [List.cons_append, named_cons, named_cons]
    split
    · rfl
    · exact ih

theorem named_set (l : List (Material K)) (n : String) (m : Material K) (hm : m.name = n)
    (h : (named l n).isSome = true) (n' : String) :
    named (l.set (position l n) m) n' = if n' = n then some m else named l n' := by
  induction l with
  | nil => cases h
  | cons a l ih =>
    rw [named_cons] at h
    rw [position_cons]
    by_cases ha : a.name = n
    · rw [if_pos ha, List.set_cons_zero, named_cons, named_cons, hm, ha]
      by_cases hn : n' = n
      · rw [if_pos hn.symm, if_pos hn]
      · rw [if_neg (Ne.symm hn), if_neg hn, if_neg (Ne.symm hn)]
    · rw [if_neg ha] at h ⊢
      rw [List.set_cons_succ, named_cons, named_cons, ih h]
      by_cases hn : n' = n
      · rw [if_pos hn, if_pos hn, if_neg (by rw [hn]; exact ha)]
      · rw [if_neg hn, if_neg hn]

theorem names_set (l : List (Material K)) (n : String) (m : Material K) (hm : m.name = n)
    (h : (named l n).isSome = true) : (l.set (position l n) m).map Material.name = l.map Material.name := by
  induction l with
  | nil => cases h
  | cons a l ih =>
    rw [named_cons] at h
    rw [position_cons]
    by_cases ha : a.name = n
    · rw [if_pos ha, List.set_cons_zero, List.map_cons, List.map_cons, hm, ha]
    · rw [if_neg ha] at h ⊢
      rw [List.set_cons_succ, List.map_cons, List.map_cons, ih h]

theorem named_erase (l : List (Material K)) (n : String) (hnd : (l.map Material.name).Nodup) (n' : String) :
    named (l.eraseIdx (position l n)) n' = if n' = n then none else named l n' := by
  induction l with
  | nil => simp [named]
  | cons a l ih =>
    rw [List.map_cons, List.nodup_cons] at hnd
    rw [position_cons]
    by_cases ha : a.name = n
    · rw [if_pos ha, List.eraseIdx_cons_zero, named_cons, ha]
      by_cases hn : n' = n
      · rw [if_pos hn, named_none_iff, hn, ← ha]
        exact hnd.1
      · rw [if_neg hn, if_neg (Ne.symm hn)]
    · rw [if_neg ha, List.eraseIdx_cons_succ, named_cons, named_cons, ih hnd.2]
      by_cases hn : n' = n
      · rw [if_pos hn, if_pos hn, if_neg (by rw [hn]; exact ha)]
      · rw [if_neg hn, if_neg hn]

theorem names_erase (l : List (Material K)) (n : String) (h : (named l n).isSome = true) :
    (l.eraseIdx (position l n)).map Material.name = (l.map Material.name).erase n := by
  induction l with
  | nil => cases h
  | cons a l ih =>
    rw [named_cons] at h
    rw [position_cons, List.map_cons]
    by_cases ha : a.name = n
    · rw [if_pos ha, List.eraseIdx_cons_zero, ha, List.erase_cons_head]
    · rw [if_neg ha] at h ⊢
      rw [List.eraseIdx_cons_succ, List.map_cons, ih h, List.erase_cons_tail (by simpa using ha)]

theorem lookup_eq (L : Library K) (n : String) : L.lookup n = named L.materials n := rfl

theorem materialIndex_eq (L : Library K) (n : String) : L.materialIndex n = position L.materials n := rfl

/-- A material or an exception. -/
def materialOrThrow (x : Option (Material K)) : Outcome (Material K) :=
  match x with
  | some m => .ok m
  | none => .throw .invalidArgument

theorem getMaterial_eq (L : Library K) (n : String) : L.getMaterial n = materialOrThrow (L.lookup n) := by
  unfold getMaterial
  rw [materialIndex_eq, lookup_eq]
  by_cases h : position L.materials n < L.materials.length
  · rw [if_neg (by omega), vget_lt _ _ h, named_eq, List.getElem?_eq_getElem h]
    rfl
  · rw [if_pos (by omega), named_eq, List.getElem?_eq_none (by omega)]
    rfl

theorem getMaterial_ok_iff (L : Library K) (n : String) (m : Material K) :
    L.getMaterial n = .ok m ↔ L.lookup n = some m := by
  rw [getMaterial_eq]
  cases L.lookup n <;> simp [materialOrThrow]

theorem getMaterial_throw_iff (L : Library K) (n : String) :
    L.getMaterial n = .throw .invalidArgument ↔ L.lookup n = none := by
  rw [getMaterial_eq]
  cases L.lookup n <;> simp [materialOrThrow]

theorem lookup_mem (L : Library K) (n : String) : (L.lookup n).isSome = true ↔ n ∈ L.getMaterialNames := by
  rw [lookup_eq, ← not_iff_not, Bool.not_eq_true, Option.isSome_eq_false_iff, Option.isNone_iff_eq_none, named_none_iff]
  rfl

theorem setComposition_name (m : Material K) (ns : List String) (as : List K) :
    (m.setComposition ns as).2.name = m.name := by
  unfold Material.setComposition
  split
  · rfl
  · split <;> rfl

theorem setCompositionMap_name (m : Material K) (c : SMap String K) : (m.setCompositionMap c).2.name = m.name :=
  setComposition_name _ _ _

/-- What `addMaterial(material)` does, seen from the queries. -/
theorem addMaterialObject_lookup (L : Library K) (m : Material K) (f : Bool) (n : String) :
    (L.addMaterialObject m f).2.lookup n
      = if n = m.name ∧ (L.addMaterialObject m f).1 = .ok () then some m else L.lookup n := by
  unfold addMaterialObject
  dsimp only
  rw [materialIndex_eq]
  by_cases h : position L.materials m.name < L.materials.length
  · rw [if_pos h]
    cases f
    · simp only [Bool.false_eq_true, if_false, and_true]
      exact named_set _ _ _ rfl ((position_lt_iff _ _).1 h) n
    · simp
  · rw [if_neg h]
    simp only [and_true]
    show named (L.materials ++ [m]) n = _
    rw [named_append]
    have hnone : named L.materials m.name = none := by
      rw [← Option.isNone_iff_eq_none, ← Option.isSome_eq_false_iff, ← Bool.not_eq_true, ← position_lt_iff]
      exact h
    by_cases hn : n = m.name
    · rw [hn, hnone, if_pos rfl, if_pos rfl]
      rfl
    · rw [if_neg (Ne.symm hn), if_neg hn, Option.or_none, lookup_eq]

theorem setMaterialComposition_lookup (L : Library K) (n : String) (ns : List String) (as : List K) (n' : String) :
    (L.setMaterialComposition n ns as).2.lookup n'
      = if n' = n then (L.lookup n).map (fun m => (m.setComposition ns as).2) else L.lookup n' := by
  unfold setMaterialComposition
  dsimp only
  rw [materialIndex_eq, ← named_eq, ← lookup_eq]
  cases h : L.lookup n with
  | none =>
    dsimp only
    by_cases hn : n' = n
    · rw [if_pos hn, hn, h]; rfl
    · rw [if_neg hn]
  | some m =>
    dsimp only
    rw [lookup_eq] at h
    exact named_set _ _ _ ((setComposition_name _ _ _).trans (named_name h)) (by rw [h]; rfl) n'

theorem setMaterialCompositionMap_eq (L : Library K) (n : String) (c : SMap String K) :
    L.setMaterialCompositionMap n c = L.setMaterialComposition n (c.map Prod.fst) (c.map Prod.snd) := rfl

/-- The names of the materials are distinct. -/
def NamesDistinct (L : Library K) : Prop := L.getMaterialNames.Nodup

theorem removeMaterial_lookup (L : Library K) (hd : NamesDistinct L) (n n' : String) :
    (L.removeMaterial n).2.lookup n' = if n' = n then none else L.lookup n' := by
  unfold removeMaterial
  dsimp only
  rw [materialIndex_eq]
  by_cases h : position L.materials n < L.materials.length
  · rw [if_neg (by omega)]
    exact named_erase _ _ hd n'
  · rw [if_pos (by omega)]
    by_cases hn : n' = n
    · rw [if_pos hn, hn, lookup_eq, ← Option.isNone_iff_eq_none, ← Option.isSome_eq_false_iff, ← Bool.not_eq_true,
        ← position_lt_iff]
      exact h
    · rw [if_neg hn]

theorem distinct_addMaterialObject (L : Library K) (hd : NamesDistinct L) (m : Material K) (f : Bool) :
    NamesDistinct (L.addMaterialObject m f).2 := by
  unfold addMaterialObject
  dsimp only
  rw [materialIndex_eq]
  by_cases h : position L.materials m.name < L.materials.length
  · rw [if_pos h]
    cases f
    · simp only [Bool.false_eq_true, if_false]
      show (List.map _ _).Nodup
      rw [names_set _ _ _ rfl ((position_lt_iff _ _).1 h)]
      exact hd
    · exact hd
  · rw [if_neg h]
    show (List.map _ (_ ++ _)).Nodup
    rw [List.map_append, List.nodup_append]
    refine ⟨hd, by simp, ?_⟩
    intro a ha b hb hab
    simp only [List.map_cons, List.map_nil, List.mem_singleton] at hb
    subst hb hab
    apply h
    rw [position_lt_iff]
    exact (lookup_mem L m.name).2 ha

theorem distinct_setMaterialComposition (L : Library K) (hd : NamesDistinct L) (n : String) (ns : List String)
    (as : List K) : NamesDistinct (L.setMaterialComposition n ns as).2 := by
  unfold setMaterialComposition
  dsimp only
  rw [materialIndex_eq, ← named_eq]
  cases h : named L.materials n with
  | none => exact hd
  | some m =>
    show (List.map _ _).Nodup
    rw [names_set _ _ _ ((setComposition_name _ _ _).trans (named_name h)) (by rw [h]; rfl)]
    exact hd

theorem distinct_removeMaterial (L : Library K) (hd : NamesDistinct L) (n : String) :
    NamesDistinct (L.removeMaterial n).2 := by
  unfold removeMaterial
  dsimp only
  split
  · exact hd
  · exact hd.sublist ((List.eraseIdx_sublist _ _).map _)

theorem makeRoom_spec (L : Library K) (hd : NamesDistinct L) (n : String) (f : Bool) :
    NamesDistinct (L.makeRoom n f).2
      ∧ ((L.makeRoom n f).1 = .ok () → (L.makeRoom n f).2.lookup n = none)
      ∧ (∀ n', n' ≠ n → (L.makeRoom n f).2.lookup n' = L.lookup n')
      ∧ ((L.makeRoom n f).1 ≠ .ok () → (L.makeRoom n f).2 = L)
      ∧ ((L.makeRoom n f).1 = .ok () ∨ (L.makeRoom n f).1 = .throw .invalidArgument)
      ∧ ((L.makeRoom n f).1 = .ok () ↔ (f = false ∨ L.lookup n = none)) := by
  unfold makeRoom
  rw [materialIndex_eq]
  by_cases h : position L.materials n < L.materials.length
  · have hs := (position_lt_iff _ _).1 h
    rw [if_pos h]
    cases f
    · have h1 : (L.removeMaterial n).1 = .ok () := by
        unfold removeMaterial
        dsimp only
        rw [materialIndex_eq, if_neg (by omega)]
      simp only [Bool.false_eq_true, if_false]
      refine ⟨distinct_removeMaterial L hd n, ?_, ?_, fun h => absurd h1 h, Or.inl h1, ?_⟩
      · intro _
        rw [removeMaterial_lookup L hd, if_pos rfl]
      · intro n' hn
        rw [removeMaterial_lookup L hd, if_neg hn]
      · simp [h1]
    · simp only [if_true]
      refine ⟨hd, fun h => by simp at h, fun _ _ => trivial, fun _ => trivial, Or.inr trivial, ?_⟩
      have : L.lookup n ≠ none := by
        rw [lookup_eq]
        intro hh
        rw [hh] at hs
        cases hs
      simp [this]
  · rw [if_neg h]
    have hnone : L.lookup n = none := by
      rw [lookup_eq, ← Option.isNone_iff_eq_none, ← Option.isSome_eq_false_iff, ← Bool.not_eq_true, ← position_lt_iff]
      exact h
    exact ⟨hd, fun _ => hnone, fun _ _ => rfl, fun h => absurd rfl h, Or.inl rfl, by simp [hnone]⟩

theorem masses_same {L M : Library K} (h : SameElements L M) (f : List (String × K)) : M.masses f = L.masses f := by
  induction f with
  | nil => rfl
  | cons e rest ih =>
    unfold masses
    rw [h.1, h.2, ih]

theorem formula_same (pf : String → Outcome (SMap String K)) {L M : Library K} (h : SameElements L M) (n : String) :
    M.formula pf n = L.formula pf n := by
  unfold formula
  congr 1
  funext f
  rw [masses_same h]

/-- The material described by the arguments of `addMaterial`, `none` when they are not valid. -/
def described (n : String) (d t : K) (c : String) : Option (Material K) :=
  if n = "" ∨ d ≤ 0 ∨ t ≤ 0 then none
  else some { name := n, initialized := true, composition := [], defaultDensity := d, defaultThickness := t,
              comment := c }

theorem init_described (n : String) (d t : K) (c : String) :
    (described n d t c = none ∧ (Material.new : Material K).init n d t c = (.throw .invalidArgument, Material.new))
      ∨ ∃ m, described n d t c = some m ∧ m.name = n ∧ (Material.new : Material K).init n d t c = (.ok (), m) := by
  unfold described Material.init
  have hz : n.length < 1 ↔ n = "" := by rw [← length_zero_iff]; omega
  by_cases h1 : n = ""
  · left; rw [if_pos (Or.inl h1), if_pos (hz.2 h1)]; exact ⟨rfl, rfl⟩
  · rw [if_neg (fun h => h1 (hz.1 h))]
    by_cases h2 : d ≤ 0
    · left; rw [if_pos (Or.inr (Or.inl h2)), if_pos h2]; exact ⟨rfl, rfl⟩
    · rw [if_neg h2]
      by_cases h3 : t ≤ 0
      · left; rw [if_pos (Or.inr (Or.inr h3)), if_pos h3]; exact ⟨rfl, rfl⟩
      · right; rw [if_neg (by tauto), if_neg h3]; exact ⟨_, rfl, rfl, rfl⟩

/-- `addMaterial(name, ...)`: what it leaves for other names, and for its own. -/
theorem addMaterial_spec (pf : String → Outcome (SMap String K)) (L : Library K) (hd : NamesDistinct L) (n : String)
    (d t : K) (c : String) (f : Bool) :
    NamesDistinct (L.addMaterial pf n d t c f).2
      ∧ (∀ n', n' ≠ n → (L.addMaterial pf n d t c f).2.lookup n' = L.lookup n')
      ∧ ((L.addMaterial pf n d t c f).1 = .ok () →
          ∃ m, L.createMaterial pf n d t c = .ok m ∧ (L.addMaterial pf n d t c f).2.lookup n = some m)
      ∧ ((f = true ∧ (L.lookup n).isSome = true) → L.addMaterial pf n d t c f = (.throw .invalidArgument, L))
      ∧ (f = false ∨ L.lookup n = none → described n d t c = none →
          (L.addMaterial pf n d t c f).1 = .throw .invalidArgument
            ∧ (L.addMaterial pf n d t c f).2.lookup n = none
            ∧ (L.lookup n = none → (L.addMaterial pf n d t c f).2 = L))
      ∧ (∀ m, f = false ∨ L.lookup n = none → described n d t c = some m →
          ∀ cc, L.formula pf n = .ok cc → cc ≠ [] →
          (L.addMaterial pf n d t c f).1 = (m.setCompositionMap cc).1
            ∧ (L.addMaterial pf n d t c f).2.lookup n = some (m.setCompositionMap cc).2)
      ∧ (∀ m, f = false ∨ L.lookup n = none → described n d t c = some m → L.formula pf n = .ok [] →
          (L.addMaterial pf n d t c f).1 = .ok ()
            ∧ (L.addMaterial pf n d t c f).2.lookup n = some m)
      ∧ (∀ m, f = false ∨ L.lookup n = none → described n d t c = some m → (∀ cc, L.formula pf n ≠ .ok cc) →
          (L.addMaterial pf n d t c f).1 ≠ .ok ()
            ∧ (L.addMaterial pf n d t c f).2.lookup n = some m) := by
  obtain ⟨r1, r2, r3, r4, r5, r6⟩ := makeRoom_spec L hd n f
  have rs := makeRoom_same L n f
  unfold addMaterial
  generalize hr : L.makeRoom n f = r at *
  obtain ⟨o, L'⟩ := r
  dsimp only at *
  by_cases hok : o = .ok ()
  swap
  · have hL : L' = L := r4 hok
    have ho : o = .throw .invalidArgument := r5.resolve_left hok
    have hcase := mt r6.2 hok
    subst ho hL
    dsimp only
    refine ⟨hd, fun _ _ => rfl, fun h => (by cases h), fun _ => rfl, fun h => absurd h hcase, fun _ h => absurd h hcase,
      fun _ h => absurd h hcase, fun _ h => absurd h hcase⟩
  subst hok
  have hcase := r6.1 rfl
  have hnone := r2 rfl
  dsimp only
  have hform := formula_same pf rs n
  rcases init_described n d t c with ⟨hde, hin⟩ | ⟨m, hde, hmn, hin⟩
  · rw [hin]
    dsimp only
    refine ⟨r1, r3, fun h => by simp at h, ?_, ?_, fun m _ h => (by rw [hde] at h; cases h),
      fun m _ h => (by rw [hde] at h; cases h), fun m _ h => by rw [hde] at h; cases h⟩
    · rintro ⟨h1, h2⟩
      rcases hcase with h | h
      · rw [h1] at h; cases h
      · rw [h] at h2; cases h2
    · intro _ _
      refine ⟨rfl, hnone, fun hl => ?_⟩
      unfold makeRoom at hr
      rw [materialIndex_eq, if_neg (by rw [position_lt_iff, ← lookup_eq, hl]; simp)] at hr
      injection hr with _ hr
      exact hr.symm
  · rw [hin]
    dsimp only
    have hlook : ∀ n', Library.lookup { L' with materials := L'.materials ++ [m] } n'
        = if n' = n then some m else L.lookup n' := by
      intro n'
      show named (L'.materials ++ [m]) n' = _
      rw [named_append, hmn, ← lookup_eq L']
      by_cases hn : n' = n
      · rw [hn, hnone, if_pos rfl, if_pos rfl]; rfl
      · rw [if_neg (Ne.symm hn), if_neg hn, Option.or_none, r3 n' hn]
    have hdist : NamesDistinct { L' with materials := L'.materials ++ [m] } := by
      show (List.map _ (_ ++ _)).Nodup
      rw [List.map_append, List.nodup_append]
      refine ⟨r1, by simp, ?_⟩
      intro a ha b hb hab
      simp only [List.map_cons, List.map_nil, List.mem_singleton] at hb
      subst hb hab
      rw [lookup_eq, named_none_iff] at hnone
      exact hnone (hmn ▸ ha)
    have hform2 : Library.formula pf { L' with materials := L'.materials ++ [m] } n = L.formula pf n := by
      rw [← hform]
      exact formula_same pf (L := L') (M := { L' with materials := L'.materials ++ [m] }) ⟨rfl, rfl⟩ n
    have hno : ∀ {P : Prop}, (f = true ∧ (L.lookup n).isSome = true) → P := by
      rintro P ⟨h1, h2⟩
      rcases hcase with h | h
      · rw [h1] at h; cases h
      · rw [h] at h2; cases h2
    rw [hform2]
    generalize hL2 : ({ L' with materials := L'.materials ++ [m] } : Library K) = L2 at *
    cases hf : L.formula pf n with
    | ok cc =>
      dsimp only
      by_cases hcc : cc = []
      · subst hcc
        rw [if_neg (by simp)]
        refine ⟨hdist, fun n' hn => by rw [hlook, if_neg hn], fun _ => ⟨m, ?_, by rw [hlook, if_pos rfl]⟩, fun h => hno h,
          fun _ h => (by rw [hde] at h; cases h), ?_, ?_, ?_⟩
        · unfold createMaterial
          rw [hin]
          dsimp only
          rw [hf]
          rfl
        · rintro m' _ _ cc hcc hne
          injection hcc with hcc
          exact absurd hcc.symm hne
        · intro m' _ hm' _
          rw [hde] at hm'
          rw [← hm', hlook, if_pos rfl]
          exact ⟨rfl, rfl⟩
        · intro m' _ _ h
          exact absurd rfl (h [])
      · rw [if_pos (List.length_pos_iff.2 hcc), setMaterialCompositionMap_eq]
        have hl2n : L2.lookup n = some m := by rw [hlook, if_pos rfl]
        have hfst : (L2.setMaterialComposition n (cc.map Prod.fst) (cc.map Prod.snd)).1 = (m.setCompositionMap cc).1 := by
          unfold setMaterialComposition
          dsimp only
          rw [materialIndex_eq, ← named_eq, ← lookup_eq, hl2n]
          rfl
        have hsnd : (L2.setMaterialComposition n (cc.map Prod.fst) (cc.map Prod.snd)).2.lookup n
            = some (m.setCompositionMap cc).2 := by
          rw [setMaterialComposition_lookup, if_pos rfl, hl2n]
          rfl
        refine ⟨distinct_setMaterialComposition _ hdist _ _ _, ?_, ?_, fun h => hno h,
          fun _ h => (by rw [hde] at h; cases h), ?_, ?_, ?_⟩
        · intro n' hn
          rw [setMaterialComposition_lookup, if_neg hn, hlook, if_neg hn]
        · intro h
          refine ⟨(m.setCompositionMap cc).2, ?_, hsnd⟩
          rw [hfst] at h
          unfold createMaterial
          rw [hin]
          dsimp only
          rw [hf, ok_bind, if_pos (List.length_pos_iff.2 hcc)]
          generalize hg : m.setCompositionMap cc = r at *
          obtain ⟨o, m'⟩ := r
          dsimp only at h
          subst h
          rfl
        · intro m' _ hm' cc' hcc' _
          rw [hde] at hm'
          injection hm' with hm'
          injection hcc' with hcc'
          subst hm' hcc'
          exact ⟨hfst, hsnd⟩
        · intro m' _ _ h
          injection h with h
          exact absurd h hcc
        · intro m' _ _ h
          exact absurd rfl (h cc)
    | throw e =>
      refine ⟨hdist, fun n' hn => by rw [hlook, if_neg hn], fun h => (by cases h), fun h => hno h,
        fun _ h => (by rw [hde] at h; cases h), fun _ _ _ cc h => (by cases h), fun _ _ _ h => (by cases h), ?_⟩
      intro m' _ hm' _
      rw [hde] at hm'
      exact ⟨by simp, by rw [hlook, if_pos rfl, hm']⟩
    | ub u =>
      refine ⟨hdist, fun n' hn => by rw [hlook, if_neg hn], fun h => (by cases h), fun h => hno h,
        fun _ h => (by rw [hde] at h; cases h), fun _ _ _ cc h => (by cases h), fun _ _ _ h => (by cases h), ?_⟩
      intro m' _ hm' _
      rw [hde] at hm'
      exact ⟨by simp, by rw [hlook, if_pos rfl, hm']⟩
    | diverge =>
      refine ⟨hdist, fun n' hn => by rw [hlook, if_neg hn], fun h => (by cases h), fun h => hno h,
        fun _ h => (by rw [hde] at h; cases h), fun _ _ _ cc h => (by cases h), fun _ _ _ h => (by cases h), ?_⟩
      intro m' _ hm' _
      rw [hde] at hm'
      exact ⟨by simp, by rw [hlook, if_pos rfl, hm']⟩

theorem distinct_step (pf : String → Outcome (SMap String K)) (fuel : Nat) (L : Library K) (hd : NamesDistinct L)
    (op : Op K) : NamesDistinct (L.step pf fuel op).2 := by
  cases op with
  | addElement e =>
    simp only [step, addElement]
    split
    · split <;> exact hd
    · exact hd
  | onElement n o =>
    simp only [step, onElement]
    split
    · split
      · split <;> exact hd
      · exact hd
    · exact hd
  | addMaterialObject m f => exact distinct_addMaterialObject L hd m f
  | addMaterial n d t c f => exact (addMaterial_spec pf L hd n d t c f).1
  | removeMaterial n => exact distinct_removeMaterial L hd n
  | removeMaterials => exact List.nodup_nil
  | setMaterialComposition n ns as => exact distinct_setMaterialComposition L hd n ns as
  | setMaterialCompositionMap n c => exact distinct_setMaterialComposition L hd n _ _
  | setEscapeCacheEnabled f => exact hd
  | clearEscapeCache => exact hd
  | updateEscapeCache k es =>
    simp only [step, updateEscapeCache]
    unfold NamesDistinct getMaterialNames
    rw [(updateEscapeLoop_frame pf fuel k es _).2]
    split <;> exact hd

/-- C25: after every history of calls the names of the materials are distinct. -/
theorem C25_names_unique (pf : String → Outcome (SMap String K)) (fuel : Nat) (on : Bool) (key : EscapeKey K)
    (ops : List (Op K)) : (run pf fuel (empty on key) ops).getMaterialNames.Nodup := by
  induction ops using List.reverseRecOn with
  | nil => exact List.nodup_nil
  | append_singleton ops o ih =>
    rw [run_snoc]
    exact distinct_step pf fuel _ ih o

/-- A name is reported iff the material can be obtained, and the material obtained has that name. -/
theorem C25_names_are_the_defined_ones (L : Library K) (n : String) :
    (n ∈ L.getMaterialNames ↔ ∃ m, L.getMaterial n = .ok m)
      ∧ (n ∉ L.getMaterialNames ↔ L.getMaterial n = .throw .invalidArgument)
      ∧ ∀ m, L.getMaterial n = .ok m → m.name = n := by
  rw [← lookup_mem]
  refine ⟨?_, ?_, ?_⟩
  · rw [Option.isSome_iff_exists]
    exact exists_congr (fun m => (getMaterial_ok_iff L n m).symm)
  · rw [getMaterial_throw_iff]
    simp
  · intro m h
    rw [getMaterial_ok_iff, lookup_eq] at h
    exact named_name h

/-- The calls that change the material with a name. -/
def touches (n : String) : Op K → Prop
  | .addMaterialObject m _ => m.name = n
  | .addMaterial m _ _ _ _ => m = n
  | .removeMaterial m => m = n
  | .removeMaterials => True
  | .setMaterialComposition m _ _ => m = n
  | .setMaterialCompositionMap m _ => m = n
  | _ => False

theorem step_untouched (pf : String → Outcome (SMap String K)) (fuel : Nat) (L : Library K) (hd : NamesDistinct L)
    (n : String) (op : Op K) (h : ¬ touches n op) : (L.step pf fuel op).2.lookup n = L.lookup n := by
  cases op with
  | addElement e =>
    simp only [step, addElement]
    split
    · split <;> rfl
    · rfl
  | onElement n o =>
    simp only [step, onElement]
    split
    · split
      · split <;> rfl
      · rfl
    · rfl
  | addMaterialObject m f =>
    simp only [step]
    rw [addMaterialObject_lookup, if_neg]
    rintro ⟨h1, _⟩
    exact h h1.symm
  | addMaterial m d t c f => exact (addMaterial_spec pf L hd m d t c f).2.1 n (fun hh => h hh.symm)
  | removeMaterial m =>
    simp only [step]
    rw [removeMaterial_lookup L hd, if_neg (fun hh => h hh.symm)]
  | removeMaterials => exact absurd trivial h
  | setMaterialComposition m ns as =>
    simp only [step]
    rw [setMaterialComposition_lookup, if_neg (fun hh => h hh.symm)]
  | setMaterialCompositionMap m c =>
    simp only [step]
    rw [setMaterialCompositionMap_eq, setMaterialComposition_lookup, if_neg (fun hh => h hh.symm)]
  | setEscapeCacheEnabled f => rfl
  | clearEscapeCache => rfl
  | updateEscapeCache k es =>
    simp only [step, updateEscapeCache]
    rw [lookup_eq, (updateEscapeLoop_frame pf fuel k es _).2]
    split <;> rfl

theorem distinct_run (pf : String → Outcome (SMap String K)) (fuel : Nat) (L : Library K) (hd : NamesDistinct L)
    (ops : List (Op K)) : NamesDistinct (run pf fuel L ops) := by
  induction ops using List.reverseRecOn with
  | nil => exact hd
  | append_singleton ops o ih => rw [run_snoc]; exact distinct_step pf fuel _ ih o

theorem run_untouched (pf : String → Outcome (SMap String K)) (fuel : Nat) (L : Library K) (hd : NamesDistinct L)
    (n : String) (ops : List (Op K)) (h : ∀ o ∈ ops, ¬ touches n o) : (run pf fuel L ops).lookup n = L.lookup n := by
  induction ops using List.reverseRecOn with
  | nil => rfl
  | append_singleton ops o ih =>
    rw [run_snoc, step_untouched pf fuel _ (distinct_run pf fuel L hd ops) n o (h o (by simp)),
      ih (fun o ho => h o (by simp [ho]))]

/-- C25: calls about other names leave a material as it is. -/
theorem C25_untouched (pf : String → Outcome (SMap String K)) (fuel : Nat) (on : Bool) (key : EscapeKey K)
    (before after : List (Op K)) (n : String) (h : ∀ o ∈ after, ¬ touches n o) :
    (run pf fuel (empty on key) (before ++ after)).getMaterial n
      = (run pf fuel (empty on key) before).getMaterial n := by
  rw [run_append, getMaterial_eq, getMaterial_eq, run_untouched pf fuel _ (C25_names_unique pf fuel on key before) n after h]

/-- C25: the material last added is returned as it was given. -/
theorem C25_last_added_object (pf : String → Outcome (SMap String K)) (fuel : Nat) (on : Bool) (key : EscapeKey K)
    (before after : List (Op K)) (m : Material K) (f : Bool)
    (hok : ((run pf fuel (empty on key) before).addMaterialObject m f).1 = .ok ())
    (h : ∀ o ∈ after, ¬ touches m.name o) :
    (run pf fuel (empty on key) (before ++ .addMaterialObject m f :: after)).getMaterial m.name = .ok m := by
  have : before ++ Op.addMaterialObject m f :: after = (before ++ [.addMaterialObject m f]) ++ after := by simp
  rw [this, C25_untouched pf fuel on key _ _ _ h, run_snoc, getMaterial_ok_iff]
  simp only [step]
  rw [addMaterialObject_lookup, if_pos ⟨rfl, hok⟩]

/-- C25: a material added by its name is the one `createMaterial` makes. -/
theorem C25_last_added_by_name (pf : String → Outcome (SMap String K)) (fuel : Nat) (on : Bool) (key : EscapeKey K)
    (before after : List (Op K)) (n : String) (d t : K) (c : String) (f : Bool)
    (hok : ((run pf fuel (empty on key) before).addMaterial pf n d t c f).1 = .ok ())
    (h : ∀ o ∈ after, ¬ touches n o) :
    ∃ m, (run pf fuel (empty on key) before).createMaterial pf n d t c = .ok m
      ∧ (run pf fuel (empty on key) (before ++ .addMaterial n d t c f :: after)).getMaterial n = .ok m := by
  have : before ++ Op.addMaterial n d t c f :: after = (before ++ [.addMaterial n d t c f]) ++ after := by simp
  rw [this, C25_untouched pf fuel on key _ _ _ h, run_snoc]
  obtain ⟨m, hm, hl⟩ := (addMaterial_spec pf _ (C25_names_unique pf fuel on key before) n d t c f).2.2.1 hok
  exact ⟨m, hm, (getMaterial_ok_iff _ _ _).2 hl⟩

/-- C25: removing succeeds iff the material is defined; it makes exactly that name unknown. -/
theorem C25_remove (pf : String → Outcome (SMap String K)) (fuel : Nat) (on : Bool) (key : EscapeKey K)
    (ops : List (Op K)) (n : String) :
    (((run pf fuel (empty on key) ops).removeMaterial n).1 = .ok ()
        ↔ ∃ m, (run pf fuel (empty on key) ops).getMaterial n = .ok m)
      ∧ ((run pf fuel (empty on key) ops).removeMaterial n).2.getMaterial n = .throw .invalidArgument
      ∧ (∀ n', n' ≠ n → ((run pf fuel (empty on key) ops).removeMaterial n).2.getMaterial n'
          = (run pf fuel (empty on key) ops).getMaterial n')
      ∧ ((run pf fuel (empty on key) ops).removeMaterial n).2.getMaterialNames
          = (run pf fuel (empty on key) ops).getMaterialNames.erase n := by
  have hd := C25_names_unique pf fuel on key ops
  generalize run pf fuel (empty on key) ops = L at *
  refine ⟨?_, ?_, ?_, ?_⟩
  · rw [← (C25_names_are_the_defined_ones L n).1, ← lookup_mem, lookup_eq, ← position_lt_iff]
    unfold removeMaterial
    dsimp only
    rw [materialIndex_eq]
    split
    · rename_i h
      simp only [reduceCtorEq, false_iff]
      omega
    · rename_i h
      simp only [true_iff]
      omega
  · rw [getMaterial_throw_iff, removeMaterial_lookup L hd, if_pos rfl]
  · intro n' hn
    rw [getMaterial_eq, getMaterial_eq, removeMaterial_lookup L hd, if_neg hn]
  · unfold removeMaterial
    dsimp only
    rw [materialIndex_eq]
    split
    · rename_i h
      rw [List.erase_of_not_mem]
      rw [← lookup_mem, lookup_eq, ← position_lt_iff]
      omega
    · rename_i h
      exact names_erase _ _ ((position_lt_iff _ _).1 (by omega))

/-- C25: setting the composition of a material changes nothing else. -/
theorem C25_set_composition (L : Library K) (n : String) (ns : List String) (as : List K) :
    (∀ n', n' ≠ n → (L.setMaterialComposition n ns as).2.getMaterial n' = L.getMaterial n')
      ∧ (∀ m, L.getMaterial n = .ok m → (L.setMaterialComposition n ns as).1 = (m.setComposition ns as).1
          ∧ (L.setMaterialComposition n ns as).2.getMaterial n = .ok (m.setComposition ns as).2)
      ∧ (L.getMaterial n = .throw .invalidArgument → L.setMaterialComposition n ns as = (.throw .invalidArgument, L)) := by
  refine ⟨?_, ?_, ?_⟩
  · intro n' hn
    rw [getMaterial_eq, getMaterial_eq, setMaterialComposition_lookup, if_neg hn]
  · intro m hm
    rw [getMaterial_ok_iff] at hm
    constructor
    · unfold setMaterialComposition
      dsimp only
      rw [materialIndex_eq, ← named_eq, ← lookup_eq, hm]
    · rw [getMaterial_ok_iff, setMaterialComposition_lookup, if_pos rfl, hm]
      rfl
  · intro hm
    rw [getMaterial_throw_iff] at hm
    unfold setMaterialComposition
    dsimp only
    rw [materialIndex_eq, ← named_eq, ← lookup_eq, hm]

/-! ### C26: rejected calls -/

theorem addMaterialObject_rejected (L : Library K) (m : Material K) (f : Bool)
    (h : (L.addMaterialObject m f).1 ≠ .ok ()) : (L.addMaterialObject m f).2 = L := by
  unfold addMaterialObject at h ⊢
  dsimp only at h ⊢
  split at h
  · split at h
    · rename_i h1 h2
      rw [if_pos h1, if_pos h2]
    · exact absurd rfl h
  · exact absurd rfl h

/-- C26 for `addMaterial(material)`: it throws exactly when the name is in use and may not be replaced, and then the
library is as it was before the call. -/
theorem C26_add_object (L : Library K) (m : Material K) (f : Bool) :
    ((L.addMaterialObject m f).1 = .throw .invalidArgument ↔ f = true ∧ m.name ∈ L.getMaterialNames)
      ∧ ((L.addMaterialObject m f).1 ≠ .ok () → (L.addMaterialObject m f).2 = L) := by
  refine ⟨?_, addMaterialObject_rejected L m f⟩
  rw [← lookup_mem, lookup_eq, ← position_lt_iff, ← materialIndex_eq]
  unfold addMaterialObject
  dsimp only
  by_cases h : L.materialIndex m.name < L.materials.length
  · rw [if_pos h]
    cases f <;> simp [h]
  · rw [if_neg h]
    simp [h]

/-- C88 for `addMaterial(name, ...)`. Partial: the name is new or may not be replaced, and the mass fractions found in
the name, when it is a formula, are positive (they are for numbers of atoms and atomic masses that are, see C28). -/
theorem C88_add_by_name_partial (pf : String → Outcome (SMap String K)) (fuel : Nat) (on : Bool) (key : EscapeKey K)
    (ops : List (Op K)) (n : String) (d t : K) (c : String) (f : Bool)
    (hnew : f = true ∨ n ∉ (run pf fuel (empty on key) ops).getMaterialNames)
    (hpos : ∃ cc, (run pf fuel (empty on key) ops).formula pf n = .ok cc ∧ ∀ e ∈ cc, 0 < e.2)
    (h : ((run pf fuel (empty on key) ops).addMaterial pf n d t c f).1 ≠ .ok ()) :
    ((run pf fuel (empty on key) ops).addMaterial pf n d t c f).1 = .throw .invalidArgument
      ∧ ((run pf fuel (empty on key) ops).addMaterial pf n d t c f).2 = run pf fuel (empty on key) ops := by
  have hd := C25_names_unique pf fuel on key ops
  generalize run pf fuel (empty on key) ops = L at *
  obtain ⟨_, _, _, s4, s5, s6, s7, _⟩ := addMaterial_spec pf L hd n d t c f
  by_cases hl : L.lookup n = none
  · cases hde : described n d t c with
    | none => exact ⟨(s5 (Or.inr hl) hde).1, (s5 (Or.inr hl) hde).2.2 hl⟩
    | some m =>
      exfalso
      apply h
      obtain ⟨cc, hcc, hp⟩ := hpos
      by_cases hne : cc = []
      · subst hne
        exact (s7 m (Or.inr hl) hde hcc).1
      · rw [(s6 m (Or.inr hl) hde cc hcc hne).1]
        unfold Material.setCompositionMap Material.setComposition
        rw [if_neg (by simp), Material.checkAmounts_ok _ _ (by simpa using fun a b hab => hp (b, a) hab)]
  · have hs : (L.lookup n).isSome = true := Option.isSome_iff_ne_none.2 hl
    have hf : f = true := hnew.resolve_right (fun hh => hh ((lookup_mem L n).1 hs))
    rw [s4 ⟨hf, hs⟩]
    exact ⟨rfl, rfl⟩


/-- What a rejected `addMaterial(name, ...)` can damage at most: the material of that name. -/
theorem C26_others_untouched (pf : String → Outcome (SMap String K)) (fuel : Nat) (on : Bool) (key : EscapeKey K)
    (ops : List (Op K)) (n n' : String) (d t : K) (c : String) (f : Bool) (hn : n' ≠ n) :
    ((run pf fuel (empty on key) ops).addMaterial pf n d t c f).2.getMaterial n'
      = (run pf fuel (empty on key) ops).getMaterial n' := by
  rw [getMaterial_eq, getMaterial_eq,
    (addMaterial_spec pf _ (C25_names_unique pf fuel on key ops) n d t c f).2.1 n' hn]

/-! ### Examples -/

/-- The parser, on rational numbers. -/
def examplePf : String → Outcome (SMap String ℚ) := Formula.parser Formula.exampleShow 9

/-- An element without tables. -/
def exampleElement (n : String) (mass : ℚ) : LibElement ℚ :=
  { name := n, mass := mass
    data := { atomicNumber := 1, binding := [], muEnergy := [], mu := none, partialE := [], partialV := [],
              cacheOn := false, muCache := [], excCache := [], shells := [], cascadeOn := false, cascadeCache := [] } }

/-- What an unused escape cache contains. -/
def exampleKey : EscapeKey ℚ :=
  { composition := [], energyThreshold := 0, intensityThreshold := 0, nThreshold := 0, alphaIn := 0, thickness := 0 }

/-- A history: hydrogen twice, oxygen, then water and a second material. -/
def exampleOps : List (Op ℚ) :=
  [.addElement (exampleElement "H" 2), .addElement (exampleElement "O" 16), .addElement (exampleElement "H" 1),
   .addMaterial "H2O" 1 1 "" true, .addMaterial "wet" 2 1 "" true,
   .setMaterialComposition "wet" ["H2O", "O"] [1, 1], .addMaterial "wet" 3 1 "again" true]

section

attribute [local instance] Element.exampleTrans

local instance exampleTrig : Trig ℚ := ⟨fun _ => 1⟩

def exampleLibrary : Library ℚ := run examplePf 5 (empty false exampleKey) exampleOps

/-- C24 on an example: hydrogen was replaced in place. -/
example : exampleLibrary.getElementNames = ["H", "O"]
    ∧ firstOccurrences (addedNames exampleOps) = ["H", "O"]
    ∧ (exampleLibrary.getElement "H").bind (fun e => .ok e.mass) = .ok 1
    ∧ (exampleLibrary.getElement "C").bind (fun e => .ok e.mass) = .throw .invalidArgument := by
  decide +kernel

/-- The hypotheses of `C25_last_added_object` and `C25_last_added_by_name` are met. -/
example : exampleLibrary.getMaterialNames = ["H2O", "wet"]
    ∧ (exampleLibrary.getMaterial "H2O").bind (fun m => .ok m.composition) = .ok [("H", 1 / 9), ("O", 8 / 9)]
    ∧ (exampleLibrary.getMaterial "wet").bind (fun m => .ok (m.defaultDensity, m.composition))
        = .ok (2, [("H2O", 1 / 2), ("O", 1 / 2)])
    ∧ (exampleLibrary.addMaterial examplePf "H2O" 5 1 "" false).1 = .ok ()
    ∧ (exampleLibrary.addMaterialObject { (Material.new : Material ℚ) with name := "x" } true).1 = .ok ()
    ∧ (exampleLibrary.removeMaterial "H2O").1 = .ok () := by
  decide +kernel

/-- The hypotheses of `C88_add_by_name_partial` are met by a call that is rejected. -/
example : "O2" ∉ exampleLibrary.getMaterialNames
    ∧ exampleLibrary.formula examplePf "O2" = .ok [("O", 1)]
    ∧ (exampleLibrary.addMaterial examplePf "O2" (-1) 1 "" false).1 = .throw .invalidArgument := by
  decide +kernel

/-- C88 is violated: replacing a material with a density that is not valid removes it. -/
theorem C88_replace_violated :
    (exampleLibrary.getMaterial "wet").isOk = true
      ∧ (exampleLibrary.addMaterial examplePf "wet" (-1) 1 "" false).1 = .throw .invalidArgument
      ∧ (exampleLibrary.addMaterial examplePf "wet" (-1) 1 "" false).2.getMaterialNames = ["H2O"] := by
  decide +kernel

/-- C88 is violated: a formula with an amount of zero is rejected, but the material stays in the library, without a
composition. -/
theorem C88_zero_amount_violated :
    (exampleLibrary.addMaterial examplePf "H0O1" 1 1 "" true).1 = .throw .invalidArgument
      ∧ (exampleLibrary.addMaterial examplePf "H0O1" 1 1 "" true).2.getMaterialNames = ["H2O", "wet", "H0O1"]
      ∧ ((exampleLibrary.addMaterial examplePf "H0O1" 1 1 "" true).2.getMaterial "H0O1").bind
          (fun m => .ok m.composition) = .ok [] := by
  decide +kernel

end

end Fisx.Library
