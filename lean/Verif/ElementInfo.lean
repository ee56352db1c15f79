import Verif.ElementProps

/-!
# The descriptive attributes of an element (C138)

The attributes that no calculation of `fisx::Element` modifies: names, position in the periodic table, density,
atomic number and atomic mass (/repo/src/fisx_element.cpp:38-144, 1463-1496).
-/

set_option linter.unusedSectionVars false

namespace Fisx

variable {K : Type} [Field K] [LinearOrder K] [IsStrictOrderedRing K]

/-- The attributes of an element (fisx_element.h:375-390). The atomic mass has no value until it is set. -/
structure ElementInfo (K : Type) where
  name : Str
  longName : Str
  atomicNumber : Int
  density : K
  column : Int
  row : Int
  atomicMass : Option K
deriving DecidableEq, Repr

namespace ElementInfo

/-- fisx_element.cpp:38-64: the default constructor. -/
def default : ElementInfo K :=
  { name := "Unknown".toList, longName := "Unknown".toList, atomicNumber := 0, density := 1, column := -1, row := -1,
    atomicMass := none }

/-- fisx_element.cpp:66-90 with 1480-1488. -/
def mk? (name : Str) (z : Int) : Outcome (ElementInfo K) :=
  if z < 1 then .throw .invalidArgument
  else .ok { name := name, longName := name, atomicNumber := z, density := 1, column := -1, row := -1,
             atomicMass := none }

/-- The setters. -/
inductive Op (K : Type)
  | setName (n : Str)
  | setLongName (n : Str)
  | setDensity (d : K)
  | setColumn (c : Int)
  | setRow (r : Int)
  | setAtomicNumber (z : Int)
  | setAtomicMass (a : K)

/-- fisx_element.cpp:92-95, 102-105, 112-115, 122-125, 132-135, 1480-1488, 1463-1471. -/
def step (e : ElementInfo K) : Op K → Outcome Unit × ElementInfo K
  | .setName n => (.ok (), { e with name := n })
  | .setLongName n => (.ok (), { e with longName := n })
  | .setDensity d => (.ok (), { e with density := d })
  | .setColumn c => (.ok (), { e with column := c })
  | .setRow r => (.ok (), { e with row := r })
  | .setAtomicNumber z => if z < 1 then (.throw .invalidArgument, e) else (.ok (), { e with atomicNumber := z })
  | .setAtomicMass a => if a < 0 then (.throw .invalidArgument, e) else (.ok (), { e with atomicMass := some a })

/-- A history (exceptions are caught by the caller). -/
def run (e : ElementInfo K) (ops : List (Op K)) : ElementInfo K := ops.foldl (fun e op => (e.step op).2) e

/-- fisx_element.cpp:1473-1477. -/
def getAtomicMass (e : ElementInfo K) : Outcome K :=
  match e.atomicMass with
  | some a => .ok a
  | none => .ub .uninitialised

end ElementInfo

/-! ## Specification: the last accepted call -/

/-- The value of the last call selected by `f`, or `d` if there is none. -/
def lastSet {α β : Type} (f : α → Option β) (d : β) (calls : List α) : β := (calls.reverse.findSome? f).getD d

theorem lastSet_nil {α β : Type} (f : α → Option β) (d : β) : lastSet f d [] = d := rfl

theorem lastSet_snoc {α β : Type} (f : α → Option β) (d : β) (l : List α) (a : α) :
    lastSet f d (l ++ [a]) = (f a).getD (lastSet f d l) := by
  unfold lastSet
  rw [List.reverse_append, List.reverse_singleton, List.singleton_append, List.findSome?_cons]
  cases h : f a <;> simp

/-- What the constructor and the accepted calls of a history say about each attribute. -/
structure ElementInfo.Says (e : ElementInfo K) (n : Str) (z : Int) (ops : List (ElementInfo.Op K)) : Prop where
  name : e.name = lastSet (fun | .setName n => some n | _ => none) n ops
  longName : e.longName = lastSet (fun | .setLongName n => some n | _ => none) n ops
  density : e.density = lastSet (fun | .setDensity d => some d | _ => none) 1 ops
  column : e.column = lastSet (fun | .setColumn c => some c | _ => none) (-1) ops
  row : e.row = lastSet (fun | .setRow r => some r | _ => none) (-1) ops
  atomicNumber : e.atomicNumber
    = lastSet (fun | .setAtomicNumber z => if 1 ≤ z then some z else none | _ => none) z ops
  atomicMass : e.atomicMass
    = lastSet (fun | .setAtomicMass a => if 0 ≤ a then some (some a) else none | _ => none) none ops

/-- The attributes of an element created with the name `n` and the atomic number `z` (or without arguments), after a
history of calls. -/
inductive ElementInfo.Reached : Str → Int → List (ElementInfo.Op K) → ElementInfo K → Prop
  | default (ops) : Reached "Unknown".toList 0 ops (ElementInfo.default.run ops)
  | named (n z ops e) : ElementInfo.mk? n z = .ok e → Reached n z ops (e.run ops)

/-- **C138** After every history of calls, each attribute of an element is what the last accepted call of its setter
said, or the default of the constructor. -/
theorem C138_last_set {n : Str} {z : Int} {ops : List (ElementInfo.Op K)} {e : ElementInfo K}
    (h : ElementInfo.Reached n z ops e) : e.Says n z ops := by
  have key : ∀ (e0 : ElementInfo K) (n : Str) (z : Int), e0.Says n z [] → ∀ ops, (e0.run ops).Says n z ops := by
    intro e0 n z h0 ops
    induction ops using List.reverseRecOn with
    | nil => exact h0
    | append_singleton l op ih =>
      have hr : e0.run (l ++ [op]) = ((e0.run l).step op).2 := by
        unfold ElementInfo.run
        rw [List.foldl_append]
        rfl
      rw [hr]
      obtain ⟨a1, a2, a3, a4, a5, a6, a7⟩ := ih
      cases op with
      | setName m => constructor <;> simp_all [ElementInfo.step, lastSet_snoc]
      | setLongName m => constructor <;> simp_all [ElementInfo.step, lastSet_snoc]
      | setDensity m => constructor <;> simp_all [ElementInfo.step, lastSet_snoc]
      | setColumn m => constructor <;> simp_all [ElementInfo.step, lastSet_snoc]
      | setRow m => constructor <;> simp_all [ElementInfo.step, lastSet_snoc]
      | setAtomicNumber m =>
        by_cases hm : m < 1
        · have : ¬ 1 ≤ m := by omega
          constructor <;> simp only [ElementInfo.step, if_pos hm, lastSet_snoc, if_neg this, Option.getD_none] <;> assumption
        · have : 1 ≤ m := by omega
          constructor <;> simp only [ElementInfo.step, if_neg hm, lastSet_snoc, if_pos this, Option.getD_none,
            Option.getD_some] <;> assumption
      | setAtomicMass m =>
        by_cases hm : m < 0
        · have : ¬ 0 ≤ m := not_le.2 hm
          constructor <;> simp only [ElementInfo.step, if_pos hm, lastSet_snoc, if_neg this, Option.getD_none] <;> assumption
        · have : 0 ≤ m := not_lt.1 hm
          constructor <;> simp only [ElementInfo.step, if_neg hm, lastSet_snoc, if_pos this, Option.getD_none,
            Option.getD_some] <;> assumption
  cases h with
  | default => exact key _ _ _ (by constructor <;> rfl) _
  | named _ _ _ e0 he =>
    refine key _ _ _ ?_ _
    unfold ElementInfo.mk? at he
    split at he
    · cases he
    · cases he
      constructor <;> rfl

/-- **C138** The constructor with a name accepts exactly the positive atomic numbers. -/
theorem C138_constructor (n : Str) (z : Int) :
    ((∃ e, (ElementInfo.mk? n z : Outcome (ElementInfo K)) = .ok e) ↔ 1 ≤ z) ∧
    (z < 1 → (ElementInfo.mk? n z : Outcome (ElementInfo K)) = .throw .invalidArgument) := by
  unfold ElementInfo.mk?
  constructor
  · by_cases h : z < 1
    · rw [if_pos h]; simp; omega
    · rw [if_neg h]; simp; omega
  · intro h; rw [if_pos h]

/-- **C138** An element created with a name keeps a positive atomic number, and no atomic mass is ever negative. -/
theorem C138_sign {n : Str} {z : Int} (hz : 1 ≤ z) {ops : List (ElementInfo.Op K)} {e : ElementInfo K}
    (h : ElementInfo.Reached n z ops e) : 1 ≤ e.atomicNumber ∧ ∀ a, e.getAtomicMass = .ok a → 0 ≤ a := by
  obtain ⟨-, -, -, -, -, a6, a7⟩ := C138_last_set h
  constructor
  · rw [a6]
    unfold lastSet
    cases hf : List.findSome? (fun op : ElementInfo.Op K => match op with
      | .setAtomicNumber z => if 1 ≤ z then some z else none | _ => none) ops.reverse with
    | none => simpa using hz
    | some w =>
      obtain ⟨op, -, ho⟩ := List.exists_of_findSome?_eq_some hf
      cases op with
      | setAtomicNumber m =>
        simp only at ho
        split at ho
        · cases ho; simpa
        · cases ho
      | _ => simp at ho
  · intro a ha
    unfold ElementInfo.getAtomicMass at ha
    rw [a7] at ha
    unfold lastSet at ha
    cases hf : List.findSome? (fun op : ElementInfo.Op K => match op with
      | .setAtomicMass a => if 0 ≤ a then some (some a) else none | _ => none) ops.reverse with
    | none => rw [hf] at ha; simp at ha
    | some w =>
      rw [hf] at ha
      obtain ⟨op, -, ho⟩ := List.exists_of_findSome?_eq_some hf
      cases op with
      | setAtomicMass m =>
        simp only at ho
        split at ho
        · cases ho
          simp only [Option.getD_some] at ha
          cases ha
          assumption
        · cases ho
      | _ => simp at ho

/-- **C138** A rejected call changes nothing, and the calls rejected are those with a non-positive atomic number or a
negative mass. -/
theorem C138_rejected (e : ElementInfo K) (op : ElementInfo.Op K) :
    ((e.step op).1 = .ok () ∨ ((e.step op).1 = .throw .invalidArgument ∧ (e.step op).2 = e)) ∧
    ((e.step op).1 ≠ .ok () ↔ (∃ z, op = .setAtomicNumber z ∧ z < 1) ∨ ∃ a, op = .setAtomicMass a ∧ a < 0) := by
  cases op with
  | setAtomicNumber z => by_cases h : z < 1 <;> simp [ElementInfo.step, h]
  | setAtomicMass a => by_cases h : a < 0 <;> simp [ElementInfo.step, h]
  | _ => simp [ElementInfo.step]

/-- **C138** (violation) The atomic mass of an element has no value until it is set: reading it is an access to an
uninitialised variable, whatever else was set. -/
theorem C138_mass_violated {n : Str} {z : Int} {ops : List (ElementInfo.Op K)} {e : ElementInfo K}
    (h : ElementInfo.Reached n z ops e) (hops : ∀ a, ElementInfo.Op.setAtomicMass a ∉ ops) :
    e.getAtomicMass = .ub .uninitialised := by
  have a7 := (C138_last_set h).atomicMass
  have : e.atomicMass = none := by
    rw [a7]
    unfold lastSet
    rw [List.findSome?_eq_none_iff.2]
    · rfl
    · intro op hop
      cases op with
      | setAtomicMass a => exact absurd (List.mem_reverse.1 hop) (hops a)
      | _ => rfl
  unfold ElementInfo.getAtomicMass
  rw [this]

/-- **C138** In every history of all the calls that modify an element, its atomic number is that of the last accepted
`setAtomicNumber`. -/
theorem C138_atomic_number [Trans K] (e : Element K) (ops : List (Element.Op K)) :
    (e.run ops).atomicNumber
      = lastSet (fun | .setAtomicNumber z => if 1 ≤ z then some z else none | _ => none) e.atomicNumber ops := by
  induction ops using List.reverseRecOn with
  | nil => rfl
  | append_singleton l op ih =>
    have hr : e.run (l ++ [op]) = ((e.run l).step op).2 := by
      unfold Element.run
      rw [List.foldl_append]
      rfl
    rw [hr, lastSet_snoc, ← ih]
    generalize e.run l = e1
    clear ih hr
    cases op with
    | setAtomicNumber z =>
      by_cases h : z < 1
      · have : ¬ 1 ≤ z := by omega
        simp only [Element.step, Element.setAtomicNumber, if_pos h, if_neg this, Option.getD_none]
      · have : 1 ≤ z := by omega
        simp only [Element.step, Element.setAtomicNumber, if_neg h, if_pos this, Option.getD_some]
    | setBindingEnergies b => rfl
    | setMass en ph co cm pa =>
      simp only [Element.step, Element.setMassAttenuationCoefficients]
      repeat' split
      all_goals rfl
    | setPartial s en v =>
      simp only [Element.step, Element.setPartial]
      repeat' split
      all_goals rfl
    | setRadiative s l v =>
      simp only [Element.step, Element.setRadiative]
      split <;> rfl
    | setRadiativeMap s m =>
      simp only [Element.step, Element.setRadiativeMap]
      repeat' split
      all_goals rfl
    | setNonradiative s l v =>
      simp only [Element.step, Element.setNonradiative]
      repeat' split
      all_goals rfl
    | setNonradiativeMap s m =>
      simp only [Element.step, Element.setNonradiativeMap, Element.setNonradiative]
      repeat' split
      all_goals rfl
    | setShellConstants s c =>
      simp only [Element.step, Element.setShellConstants]
      repeat' split
      all_goals rfl
    | setCascadeCacheEnabled f =>
      simp only [Element.step, Element.setCascadeCacheEnabled, Element.fillCascadeCache]
      repeat' split
      all_goals rfl
    | fillCascadeCache =>
      simp only [Element.step, Element.fillCascadeCache]
      split <;> rfl
    | emptyCascadeCache => rfl
    | setCacheEnabled f => rfl
    | clearCache => rfl
    | fillCache l =>
      simp only [Element.step, Element.fillCache, Option.getD_none]
      exact Element.fillLoop_induct (fun f => f.atomicNumber = e1.atomicNumber) (fun _ _ _ h _ => h)
        (fun _ _ _ h _ _ => h) _ _ rfl
    | updateCache l =>
      simp only [Element.step, Element.updateCache, Option.getD_none]
      exact Element.updateLoop_induct (fun f => f.atomicNumber = e1.atomicNumber) (fun _ _ _ h _ _ => h)
        (fun _ _ _ h _ _ => h) _ _ rfl

/-- The hypotheses are met: an element with a history. -/
example : ∃ e : ElementInfo Rat, ElementInfo.Reached "Fe".toList 26
    [.setAtomicNumber 0, .setAtomicMass 55, .setAtomicMass (-1), .setRow 4] e ∧
    e.atomicNumber = 26 ∧ e.getAtomicMass = .ok 55 ∧ e.row = 4 := by
  refine ⟨_, ElementInfo.Reached.named _ _ _ _ rfl, ?_⟩
  decide +kernel

end Fisx
