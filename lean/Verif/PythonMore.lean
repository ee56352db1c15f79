import Verif.PythonProps
import Verif.MaterialProps

/-!
# More of the Python interface: C154-C156

Layers of the configuration, materials and the constructor of the library.
-/

set_option linter.unusedSectionVars false

namespace Fisx
namespace Python

/-! ## Lists of layers -/

section layers

variable {K R : Type} [Field K] [LinearOrder K] [IsStrictOrderedRing K]

/-- An item of a list of layers. A number is `none` when the object cannot be converted to a `double`. -/
inductive LayerItem (K : Type)
  | instance_ (l : Layer K)
  | four (name : Text) (density thickness funny : Option K)
  | three (name : Text) (density thickness : Option K)
  /-- A sequence of another length. -/
  | sequence
  /-- An object that is not a sequence. -/
  | scalar
  /-- `None`. -/
  | none

/-- The conversion of an object to a `double`. -/
def toDouble : Option K → Result K
  | some x => .value x
  | .none => .raises .typeError

/-- PyXRF.pyx:97-98, 167-168, 189-190 with the type test of python/cython/default/_fisx.cpp:29081: an instance is copied;
`None` passes the test and its pointer is read. -/
def copyLayer : LayerItem K → Result (Layer K)
  | .instance_ l => .value l
  | .none => .ub .nullDeref
  | _ => .raises .typeError

/-- PyXRF.pyx:100-101, 170-171, 192-193: four fields. -/
def fourFields : LayerItem K → Result (Layer K)
  | .four name d t f => do
    let n ← stdString (toBytes name)
    let d ← toDouble d
    let t ← toDouble t
    let f ← toDouble f
    return Layer.new n d t f
  | .three _ _ _ => .raises .valueError
  | .sequence => .raises .valueError
  | _ => .raises .typeError

/-- PyXRF.pyx:103-104, 173-174, 195-196: three fields. -/
def threeFields : LayerItem K → Result (Layer K)
  | .three name d t => do
    let n ← stdString (toBytes name)
    let d ← toDouble d
    let t ← toDouble t
    return Layer.new n d t 1
  | .four _ _ _ _ => .raises .valueError
  | .sequence => .raises .valueError
  | _ => .raises .typeError

/-- The loop over the items. -/
def layersOf (f : LayerItem K → Result (Layer K)) : List (LayerItem K) → Result (List (Layer K))
  | [] => .value []
  | i :: rest => do
    let l ← f i
    let ls ← layersOf f rest
    return l :: ls

/-- PyXRF.pyx:94-104, 164-174, 186-196: the first item says which items are expected. -/
def fillLayers (items : List (LayerItem K)) : Result (List (Layer K)) :=
  match items with
  | [] => .value []
  | .instance_ l :: rest => layersOf copyLayer (.instance_ l :: rest)
  | .four n d t f :: rest => layersOf fourFields (.four n d t f :: rest)
  | .three n d t :: rest => layersOf threeFields (.three n d t :: rest)
  | .sequence :: rest => layersOf threeFields (.sequence :: rest)
  | .scalar :: _ => .raises .typeError
  | .none :: _ => .raises .typeError

/-- PyXRF.pyx:84-105, fisx_xrfconfig.cpp:543-546: `PyXRF.setBeamFilters`. -/
def setBeamFilters (c : Config K R) (items : List (LayerItem K)) : Result Unit × Config K R :=
  onState (fillLayers items) c (fun l => (.value (), { c with beamFilters := l }))

/-- PyXRF.pyx:176-197, fisx_xrfconfig.cpp:569-572: `PyXRF.setAttenuators`. -/
def setAttenuators (c : Config K R) (items : List (LayerItem K)) : Result Unit × Config K R :=
  onState (fillLayers items) c (fun l => (.value (), { c with attenuators := l }))

/-- PyXRF.pyx:154-175, fisx_xrfconfig.cpp:553-567: `PyXRF.setSample`. -/
def setSample (c : Config K R) (items : List (LayerItem K)) (referenceLayer : Int) : Result Unit × Config K R :=
  onState (fillLayers items) c (fun l => let r := c.setSample l referenceLayer; (guarded r.1, r.2))

end layers

/-! ## Materials -/

section material

variable {K : Type} [Field K] [LinearOrder K] [IsStrictOrderedRing K]

/-- PyMaterial.pyx:42-45: the constructor. -/
def newMaterial (name : Text) (density thickness : K) (comment : Text) : Result (Material K) := do
  let n ← stdString (toBytes name)
  let c ← stdString (toBytes comment)
  guarded (Material.mk? n density thickness c)

/-- PyMaterial.pyx:62-65, `setComposition`. -/
def setMaterialComposition (m : Material K) (comp : List (Text × K)) : Result Unit × Material K :=
  onState (stdMap (toBytesKeys comp)) m (fun c => let r := m.setCompositionMap c; (guarded r.1, r.2))

/-- PyMaterial.pyx:57-60, `setCompositionFromLists`. -/
def setMaterialLists (m : Material K) (names : List Text) (amounts : List K) : Result Unit × Material K :=
  onState (stdStrings ((names.map toBytes).map some)) m (fun n =>
    let r := m.setComposition n amounts
    (guarded r.1, r.2))

/-- PyMaterial.pyx:67-68, `getComposition`. -/
def getMaterialComposition (m : Material K) : Result (List (Text × K)) :=
  toStringKeys (.dict (m.composition.map (fun p => (Text.bytes p.1, p.2))))

end material

/-! ## The library -/

section library

variable {K : Type} [Field K] [LinearOrder K] [Trans K]

/-- PyElements.pyx:53-72, the constructor. `fisxDir` is `DataDir.FISX_DATA_DIR`, `envDir` the directory C++ takes when it
is given none. The flag of the escape cache and the parameters of its content are not initialised: they are arguments. -/
def newElements (on : Bool) (key : EscapeKey K) (strtod : Str → K) (fs : Init.Files) (fisxDir envDir : String)
    (directoryName bindingEnergiesFile crossSectionsFile : Text) (pymca : Bool) : Result (Init.Database K) := do
  let dir ← if directoryName.get.toList = [] then .value fisxDir else stdString (toBytes directoryName)
  if pymca then guarded (Init.construct2 on key strtod fs dir true)
  else do
    let b ← stdString (toBytes bindingEnergiesFile)
    let x ← stdString (toBytes crossSectionsFile)
    if b.toList ≠ [] then guarded (Init.construct3 on key strtod fs dir b x)
    else do
      let d ← guarded (Init.construct1 on key strtod fs envDir dir)
      if x.toList ≠ [] then guarded (Init.withCrossSections strtod fs x d) else .value d

end library

/-! ## C154: lists of layers -/

section layersProps

variable {K R : Type} [Field K] [LinearOrder K] [IsStrictOrderedRing K]

/-- The layer an item stands for: the instance itself, or the one with these fields, the last being 1 when it is left
out. -/
def LayerItem.layer : LayerItem K → Option (Layer K)
  | .instance_ l => some l
  | .four n (some d) (some t) (some f) => some (Layer.new n.get d t f)
  | .three n (some d) (some t) => some (Layer.new n.get d t 1)
  | _ => Option.none

/-- The way an item is given. -/
def LayerItem.form : LayerItem K → Nat
  | .instance_ _ => 0
  | .four _ _ _ _ => 4
  | .three _ _ _ => 3
  | .sequence => 1
  | .scalar => 2
  | .none => 5

/-- The layers a list of items stands for: all the items are given in the same way. -/
def Stand (items : List (LayerItem K)) (layers : List (Layer K)) : Prop :=
  (∀ i ∈ items, ∀ j ∈ items, i.form = j.form) ∧ items.map LayerItem.layer = layers.map some

/-- What a method that takes one item does. -/
def Classifies (f : LayerItem K → Result (Layer K)) (k : Nat) : Prop :=
  ∀ i : LayerItem K, i ≠ .none →
    (∃ l, f i = .value l ∧ i.form = k ∧ i.layer = some l) ∨
    ((f i = .raises .typeError ∨ f i = .raises .valueError) ∧ ¬(i.form = k ∧ ∃ l, i.layer = some l))

theorem copyLayer_classifies : Classifies (copyLayer : LayerItem K → _) 0 := by
  intro i hi
  cases i with
  | instance_ l => exact .inl ⟨l, rfl, rfl, rfl⟩
  | none => exact absurd rfl hi
  | _ => exact .inr ⟨.inl rfl, by rintro ⟨h, _⟩; cases h⟩

theorem fourFields_classifies : Classifies (fourFields : LayerItem K → _) 4 := by
  intro i hi
  cases i with
  | four n d t f =>
    rcases d with _ | d
    · exact .inr ⟨.inl (by simp [fourFields, do_bind, stdString_toBytes, value_bind, toDouble, raises_bind]), by rintro ⟨_, l, h⟩; cases h⟩
    rcases t with _ | t
    · exact .inr ⟨.inl (by simp [fourFields, do_bind, stdString_toBytes, value_bind, toDouble, raises_bind]), by rintro ⟨_, l, h⟩; cases h⟩
    rcases f with _ | f
    · exact .inr ⟨.inl (by simp [fourFields, do_bind, stdString_toBytes, value_bind, toDouble, raises_bind]), by rintro ⟨_, l, h⟩; cases h⟩
    exact .inl ⟨_, by simp [fourFields, do_bind, stdString_toBytes, value_bind, toDouble, pure_value], rfl, rfl⟩
  | three n d t => exact .inr ⟨.inr rfl, by rintro ⟨h, _⟩; cases h⟩
  | sequence => exact .inr ⟨.inr rfl, by rintro ⟨h, _⟩; cases h⟩
  | none => exact absurd rfl hi
  | instance_ l => exact .inr ⟨.inl rfl, by rintro ⟨h, _⟩; cases h⟩
  | scalar => exact .inr ⟨.inl rfl, by rintro ⟨h, _⟩; cases h⟩

theorem threeFields_classifies : Classifies (threeFields : LayerItem K → _) 3 := by
  intro i hi
  cases i with
  | three n d t =>
    rcases d with _ | d
    · exact .inr ⟨.inl (by simp [threeFields, do_bind, stdString_toBytes, value_bind, toDouble, raises_bind]), by rintro ⟨_, l, h⟩; cases h⟩
    rcases t with _ | t
    · exact .inr ⟨.inl (by simp [threeFields, do_bind, stdString_toBytes, value_bind, toDouble, raises_bind]), by rintro ⟨_, l, h⟩; cases h⟩
    exact .inl ⟨_, by simp [threeFields, do_bind, stdString_toBytes, value_bind, toDouble, pure_value], rfl, rfl⟩
  | four n d t f => exact .inr ⟨.inr rfl, by rintro ⟨h, _⟩; cases h⟩
  | sequence => exact .inr ⟨.inr rfl, by rintro ⟨h, _⟩; cases h⟩
  | none => exact absurd rfl hi
  | instance_ l => exact .inr ⟨.inl rfl, by rintro ⟨h, _⟩; cases h⟩
  | scalar => exact .inr ⟨.inl rfl, by rintro ⟨h, _⟩; cases h⟩

theorem layersOf_spec {f : LayerItem K → Result (Layer K)} {k : Nat} (hf : Classifies f k) :
    ∀ items : List (LayerItem K), (∀ i ∈ items, i ≠ .none) →
      (∃ ls, layersOf f items = .value ls ∧ (∀ i ∈ items, i.form = k) ∧ items.map LayerItem.layer = ls.map some) ∨
      ((layersOf f items = .raises .typeError ∨ layersOf f items = .raises .valueError) ∧
        ¬((∀ i ∈ items, i.form = k) ∧ ∃ ls : List (Layer K), items.map LayerItem.layer = ls.map some))
  | [], _ => .inl ⟨[], rfl, by simp, rfl⟩
  | i :: rest, h => by
    have ih := layersOf_spec hf rest (fun j hj => h j (List.mem_cons_of_mem _ hj))
    rcases hf i (h i List.mem_cons_self) with ⟨l, h1, h2, h3⟩ | ⟨h1, h2⟩
    · rcases ih with ⟨ls, r1, r2, r3⟩ | ⟨r1, r2⟩
      · refine .inl ⟨l :: ls, ?_, ?_, ?_⟩
        · simp only [layersOf, do_bind, h1, value_bind, r1, pure_value]
        · intro j hj
          rcases List.mem_cons.1 hj with rfl | hj
          · exact h2
          · exact r2 j hj
        · simp [h3, r3]
      · refine .inr ⟨?_, ?_⟩
        · rcases r1 with r1 | r1
          · exact .inl (by simp only [layersOf, do_bind, h1, value_bind, r1, raises_bind])
          · exact .inr (by simp only [layersOf, do_bind, h1, value_bind, r1, raises_bind])
        · rintro ⟨a, ls, b⟩
          cases ls with
          | nil => cases b
          | cons x ls =>
            simp only [List.map_cons, List.cons.injEq] at b
            exact r2 ⟨fun j hj => a j (List.mem_cons_of_mem _ hj), ls, b.2⟩
    · refine .inr ⟨?_, ?_⟩
      · rcases h1 with h1 | h1
        · exact .inl (by simp only [layersOf, do_bind, h1, raises_bind])
        · exact .inr (by simp only [layersOf, do_bind, h1, raises_bind])
      · rintro ⟨a, ls, b⟩
        cases ls with
        | nil => cases b
        | cons x ls =>
          simp only [List.map_cons, List.cons.injEq] at b
          exact h2 ⟨a i List.mem_cons_self, x, b.1⟩

theorem fillLayers_spec (items : List (LayerItem K)) (hn : ∀ i ∈ items, i ≠ .none) :
    (∃ ls, fillLayers items = .value ls ∧ Stand items ls) ∨
    ((fillLayers items = .raises .typeError ∨ fillLayers items = .raises .valueError) ∧ ¬∃ ls, Stand items ls) := by
  have lift : ∀ (f : LayerItem K → Result (Layer K)) (k : Nat) (i : LayerItem K) (rest : List (LayerItem K)),
      Classifies f k → i.form = k → (∀ j ∈ i :: rest, j ≠ .none) →
      (∃ ls, layersOf f (i :: rest) = .value ls ∧ Stand (i :: rest) ls) ∨
      ((layersOf f (i :: rest) = .raises .typeError ∨ layersOf f (i :: rest) = .raises .valueError) ∧
        ¬∃ ls, Stand (i :: rest) ls) := by
    intro f k i rest hf hk hn
    rcases layersOf_spec hf (i :: rest) hn with ⟨ls, r1, r2, r3⟩ | ⟨r1, r2⟩
    · exact .inl ⟨ls, r1, fun a ha b hb => (r2 a ha).trans (r2 b hb).symm, r3⟩
    · refine .inr ⟨r1, ?_⟩
      rintro ⟨ls, h1, h2⟩
      exact r2 ⟨fun j hj => (h1 j hj i List.mem_cons_self).trans hk, ls, h2⟩
  have none' : ∀ (i : LayerItem K) (rest : List (LayerItem K)), i.layer = none → ¬∃ ls, Stand (i :: rest) ls := by
    rintro i rest h ⟨ls, _, h2⟩
    cases ls with
    | nil => cases h2
    | cons x ls =>
      simp only [List.map_cons, List.cons.injEq] at h2
      rw [h] at h2
      exact absurd h2.1 (by simp)
  cases items with
  | nil => exact .inl ⟨[], rfl, by simp [Stand]⟩
  | cons i rest =>
    cases i with
    | instance_ l => exact lift _ _ _ rest copyLayer_classifies rfl hn
    | four n d t f => exact lift _ _ _ rest fourFields_classifies rfl hn
    | three n d t => exact lift _ _ _ rest threeFields_classifies rfl hn
    | sequence => exact .inr ⟨.inr rfl, none' _ _ rfl⟩
    | scalar => exact .inr ⟨.inl rfl, none' _ _ rfl⟩
    | none => exact absurd rfl (hn _ List.mem_cons_self)

theorem Stand.unique {items : List (LayerItem K)} {a b : List (Layer K)} (ha : Stand items a) (hb : Stand items b) : a = b :=
  List.map_injective_iff.2 (Option.some_injective _) (ha.2.symm.trans hb.2)

/-- **C154** (partial: lists without `None`) A list of layers given all in the same way, as instances, by four fields or by
three, becomes the filters, the attenuators or the sample of the configuration, in the order of the list and with a funny
factor of 1 when it is left out, and nothing else changes; the reference layer of the sample must be smaller than the number
of layers. Any other list is refused with an exception and the configuration is as it was. -/
theorem C154_layers_partial (c : Config K R) (items : List (LayerItem K)) (hn : ∀ i ∈ items, i ≠ .none) :
    (∀ ls, Stand items ls →
      setBeamFilters c items = (.value (), { c with beamFilters := ls }) ∧
      setAttenuators c items = (.value (), { c with attenuators := ls }) ∧
      (∀ n : Int, n < items.length →
        setSample c items n = (.value (), { c with sample := ls, referenceLayer := some n })) ∧
      (∀ n : Int, (items.length : Int) ≤ n → setSample c items n = (.raises .valueError, c))) ∧
    ((¬∃ ls, Stand items ls) → ∀ n : Int, ∃ e, (e = .typeError ∨ e = .valueError) ∧
      setBeamFilters c items = (.raises e, c) ∧ setAttenuators c items = (.raises e, c) ∧
      setSample c items n = (.raises e, c)) := by
  constructor
  · intro ls hls
    rcases fillLayers_spec items hn with ⟨ls', h1, h2⟩ | ⟨_, h2⟩
    · have : ls' = ls := h2.unique hls
      subst this
      have hlen : ls'.length = items.length := by
        have := congrArg List.length h2.2
        simpa using this.symm
      refine ⟨by simp only [setBeamFilters, h1, onState], by simp only [setAttenuators, h1, onState], ?_, ?_⟩
      · intro n hlt
        have h : ¬n ≥ (ls'.length : Int) := by rw [hlen]; omega
        simp only [setSample, h1, onState, Config.setSample, if_neg h, guarded]
      · intro n hle
        have h : n ≥ (ls'.length : Int) := by rw [hlen]; omega
        simp only [setSample, h1, onState, Config.setSample, if_pos h, guarded, translate]
    · exact absurd ⟨ls, hls⟩ h2
  · intro hno n
    rcases fillLayers_spec items hn with ⟨ls', _, h2⟩ | ⟨h1, _⟩
    · exact absurd ⟨ls', h2⟩ hno
    · rcases h1 with h1 | h1
      · exact ⟨.typeError, .inl rfl, by simp only [setBeamFilters, h1, onState], by simp only [setAttenuators, h1, onState],
          by simp only [setSample, h1, onState]⟩
      · exact ⟨.valueError, .inr rfl, by simp only [setBeamFilters, h1, onState], by simp only [setAttenuators, h1, onState],
          by simp only [setSample, h1, onState]⟩

/-- **C154** (violated) `None` among instances is not refused: its pointer is read. -/
theorem C154_none_violated (c : Config K R) (l : Layer K) (rest : List (LayerItem K)) (n : Int) :
    (setSample c (.instance_ l :: .none :: rest) n).1 = .ub .nullDeref ∧
    (setBeamFilters c (.instance_ l :: .none :: rest)).1 = .ub .nullDeref ∧
    (setAttenuators c (.instance_ l :: .none :: rest)).1 = .ub .nullDeref := ⟨rfl, rfl, rfl⟩

/-- Two layers by three fields, and the same by four. -/
example : Stand [LayerItem.three (.str "Fe") (some (8 : ℚ)) (some 1), .three (.str "Au") (some 19) (some 2)]
      [Layer.new "Fe" 8 1 1, Layer.new "Au" 19 2 1] ∧
    Stand [LayerItem.four (.str "Fe") (some (8 : ℚ)) (some 1) (some 1), .four (.bytes "Au") (some 19) (some 2) (some 1)]
      [Layer.new "Fe" 8 1 1, Layer.new "Au" 19 2 1] ∧
    ¬∃ ls, Stand [LayerItem.three (.str "Fe") (some (8 : ℚ)) (some 1), .four (.str "Au") (some 19) (some 2) (some 1)] ls := by
  refine ⟨⟨?_, rfl⟩, ⟨?_, rfl⟩, ?_⟩
  · simp [LayerItem.form]
  · simp [LayerItem.form]
  · rintro ⟨ls, h, _⟩
    simp [LayerItem.form] at h

end layersProps

/-! ## C155: materials -/

section materialProps

variable {K : Type} [Field K] [LinearOrder K] [IsStrictOrderedRing K]

theorem insert_perm {ν : Type} : ∀ {m : SMap String ν} {k : String} (v : ν), m.find? k = none → (m.insert k v).Perm ((k, v) :: m)
  | [], _, _, _ => List.Perm.refl _
  | (k', v') :: t, k, v, h => by
    unfold SMap.insert
    split
    · exact List.Perm.refl _
    · rw [SMap.find?_cons] at h
      split
      · rename_i hk
        rw [if_pos hk] at h
        cases h
      · rename_i hk
        rw [if_neg hk] at h
        exact ((insert_perm v h).cons _).trans (List.Perm.swap _ _ _)

theorem stdMap_perm : ∀ (comp : List (Text × K)), (comp.map (fun p => p.1.get)).Nodup →
    ∃ m, stdMap (toBytesKeys comp) = .value m ∧ SMap.Sorted m ∧ m.Perm (comp.map (fun p => (p.1.get, p.2)))
  | [], _ => ⟨[], rfl, SMap.sorted_nil, List.Perm.refl _⟩
  | (t, x) :: rest, h => by
    rw [List.map_cons, List.nodup_cons] at h
    obtain ⟨m, h1, h2, h3⟩ := stdMap_perm rest h.2
    have hnone : m.find? t.get = none := by
      rw [SMap.find?_eq_none_iff]
      intro e he hek
      apply h.1
      have := h3.subset he
      obtain ⟨q, hq, rfl⟩ := List.mem_map.1 this
      exact List.mem_map.2 ⟨q, hq, hek⟩
    have hmem : m.mem t.get = false := by simp [SMap.mem, hnone]
    refine ⟨m.insert t.get x, ?_, SMap.insert_sorted h2 _ _, ?_⟩
    · have e : toBytesKeys ((t, x) :: rest) = (toBytes t, x) :: toBytesKeys rest := rfl
      rw [e]
      simp [stdMap, do_bind, stdString_toBytes, value_bind, h1, hmem, pure_value]
    · exact (insert_perm x hnone).trans (h3.cons _)

/-- **C155** A composition given as a dictionary of different names, text or bytes, with positive amounts, is accepted; what
getComposition gives back has these names as `str`, each with its part of the total amount, and nothing else; the rest of the
material is as it was. With an amount that is not positive the call raises `ValueError` and nothing changes. -/
theorem C155_dict (m : Material K) (comp : List (Text × K)) (hne : comp ≠ [])
    (hd : (comp.map (fun p => p.1.get)).Nodup) :
    ((∀ p ∈ comp, 0 < p.2) →
      (setMaterialComposition m comp).1 = .value () ∧
      (setMaterialComposition m comp).2 = { m with composition := (setMaterialComposition m comp).2.composition } ∧
      ∃ r, getMaterialComposition (setMaterialComposition m comp).2 = .value r ∧
        r.Perm (comp.map (fun p => (Text.str p.1.get, p.2 / (comp.map Prod.snd).sum)))) ∧
    ((∃ p ∈ comp, p.2 ≤ 0) → setMaterialComposition m comp = (.raises .valueError, m)) := by
  obtain ⟨c, h1, h2, h3⟩ := stdMap_perm comp hd
  have hcne : c ≠ [] := by
    intro h
    rw [h] at h3
    have := h3.symm.eq_nil
    exact hne (List.map_eq_nil_iff.1 this)
  have heq : setMaterialComposition m comp = (guarded (m.setCompositionMap c).1, (m.setCompositionMap c).2) := by
    unfold setMaterialComposition
    rw [h1]
    rfl
  have hsum : (c.map Prod.snd).sum = (comp.map Prod.snd).sum := by
    have := (h3.map Prod.snd).sum_eq
    rw [this, List.map_map]
    rfl
  obtain ⟨n1, n2⟩ := Material.C01_map_normalised m c h2 hcne
  constructor
  · intro hpos
    have hok : (m.setCompositionMap c).1 = .ok () := by
      rw [n1]
      intro e he
      obtain ⟨q, hq, rfl⟩ := List.mem_map.1 (h3.subset he)
      exact hpos q hq
    have hcomp := (n2 hok).2
    rw [heq, hok]
    refine ⟨rfl, ?_, _, rfl, ?_⟩
    · show (m.setCompositionMap c).2 = _
      unfold Material.setCompositionMap Material.setComposition
      split
      · rfl
      · split <;> rfl
    · show (((m.setCompositionMap c).2.composition.map _).map _).Perm _
      rw [hcomp, List.map_map, List.map_map, hsum]
      exact (h3.map _).trans (by rw [List.map_map]; exact List.Perm.refl _)
  · rintro ⟨p, hp, hle⟩
    have hbad : ∃ a ∈ c.map Prod.snd, a ≤ 0 :=
      ⟨p.2, List.mem_map.2 ⟨(p.1.get, p.2), h3.symm.subset (List.mem_map.2 ⟨p, hp, rfl⟩), rfl⟩, hle⟩
    have : m.setCompositionMap c = (.throw .invalidArgument, m) := by
      simp [Material.setCompositionMap, Material.setComposition, Material.checkAmounts_throw _ _ hbad]
    rw [heq, this]
    rfl

/-- **C155** (partial: without repeated names, for these see C55) The same with lists of names and amounts; lists of
different length raise `ValueError` and nothing changes. -/
theorem C155_lists_partial (m : Material K) (names : List Text) (amounts : List K) :
    (names.length ≠ amounts.length ∨ (∃ a ∈ amounts, a ≤ 0) → setMaterialLists m names amounts = (.raises .valueError, m)) ∧
    (names.length = amounts.length → (∀ a ∈ amounts, 0 < a) → (names.map Text.get).Nodup →
      (setMaterialLists m names amounts).1 = .value () ∧
      (setMaterialLists m names amounts).2 = { m with composition := (setMaterialLists m names amounts).2.composition } ∧
      ∃ r, getMaterialComposition (setMaterialLists m names amounts).2 = .value r ∧
        r.Perm ((names.zip amounts).map (fun p => (Text.str p.1.get, p.2 / amounts.sum)))) := by
  have hstd : stdStrings ((names.map toBytes).map some) = .value (names.map Text.get) := by
    rw [stdStrings_some, List.map_map]
    congr 1
    apply List.map_congr_left
    intro t _
    cases t <;> rfl
  have heq : setMaterialLists m names amounts =
      (guarded (m.setComposition (names.map Text.get) amounts).1, (m.setComposition (names.map Text.get) amounts).2) := by
    unfold setMaterialLists
    rw [hstd]
    rfl
  constructor
  · intro h
    rw [heq]
    by_cases hl : names.length = amounts.length
    · have hbad := h.resolve_left (fun hn => hn hl)
      simp [Material.setComposition, hl, Material.checkAmounts_throw _ _ hbad, guarded, translate]
    · simp [Material.setComposition, hl, guarded, translate]
  · intro hl hpos hnd
    have hset := Material.setComposition_ok m (names.map Text.get) amounts (by simpa using hl) hpos
    rw [heq, hset]
    refine ⟨rfl, rfl, _, rfl, ?_⟩
    dsimp only
    have hz : (names.map Text.get).zip amounts = (names.zip amounts).map (fun p => (p.1.get, p.2)) := by
      rw [List.zip_map_left]
      rfl
    rw [hz, List.map_map, List.map_map]
    have key : ∀ (l : List (String × K)), (l.map Prod.fst).Nodup → (SMap.ofList l).Perm l := by
      intro l hl
      have hgen : ∀ (l : List (String × K)) (acc : SMap String K), (l.map Prod.fst).Nodup →
          (∀ e ∈ l, acc.find? e.1 = none) → (l.foldl (fun m e => SMap.insert m e.1 e.2) acc).Perm (l ++ acc) := by
        intro l
        induction l with
        | nil => intro acc _ _; exact List.Perm.refl _
        | cons e r ih =>
          intro acc hn ha
          rw [List.map_cons, List.nodup_cons] at hn
          rw [List.foldl_cons]
          refine (ih _ hn.2 ?_).trans ?_
          · intro q hq
            rw [SMap.find?_insert, if_neg]
            · exact ha q (List.mem_cons_of_mem _ hq)
            · intro he
              exact hn.1 (List.mem_map.2 ⟨q, hq, he.symm⟩)
          · refine ((insert_perm e.2 (ha e List.mem_cons_self)).append_left r).trans ?_
            exact List.perm_middle
      have := hgen l [] hl (fun _ _ => rfl)
      rw [List.append_nil] at this
      exact this
    have hnd' : (((names.zip amounts).map ((fun e : String × K => (e.1, e.2 / amounts.sum)) ∘ fun p : Text × K =>
        (p.1.get, p.2))).map Prod.fst).Nodup := by
      have : ((names.zip amounts).map ((fun e : String × K => (e.1, e.2 / amounts.sum)) ∘ fun p : Text × K =>
          (p.1.get, p.2))).map Prod.fst = names.map Text.get := by
        rw [List.map_map]
        have h3 : (names.zip amounts).map Prod.fst = names := List.map_fst_zip (le_of_eq hl)
        calc _ = ((names.zip amounts).map Prod.fst).map Text.get := by rw [List.map_map]; rfl
          _ = _ := by rw [h3]
      rw [this]
      exact hnd
    have hp := key _ hnd'
    refine (hp.map _).trans ?_
    rw [List.map_map]
    exact List.Perm.refl _

/-- A compound with names given as text and as bytes. -/
example : (setMaterialComposition (Material.new : Material ℚ) [(.str "Si", 1), (.bytes "O", 3)]).1 = .value () ∧
    getMaterialComposition (setMaterialComposition (Material.new : Material ℚ) [(.str "Si", 1), (.bytes "O", 3)]).2
      = .value [(.str "O", 3 / 4), (.str "Si", 1 / 4)] := by
  constructor <;> decide +kernel

/-- **C155** (the unrestricted claim) is false: a name given twice, once as text and once as bytes, is accepted, one of its
amounts is lost, and the fractions sum to 1/2. -/
theorem C155_repeated_violated :
    (setMaterialLists (Material.new : Material ℚ) [.str "Fe", .bytes "Fe"] [1, 1]).1 = .value () ∧
    getMaterialComposition (setMaterialLists (Material.new : Material ℚ) [.str "Fe", .bytes "Fe"] [1, 1]).2
      = .value [(.str "Fe", 1 / 2)] := by
  constructor <;> decide +kernel

end materialProps

/-! ## C156: the constructor of the library -/

section libraryProps

variable {K : Type} [Field K] [LinearOrder K] [IsStrictOrderedRing K] [Trans K]

/-- **C156** (partial: without the flag of PyMca) The library made from Python with a directory and the files of binding
energies and cross sections is the one C++ makes of them, whether the two files are given or left out (empty); without a
directory the one of the package is taken. An exception of C++ is an exception of Python. -/
theorem C156_files_partial (on : Bool) (key : EscapeKey K) (strtod : Str → K) (fs : Init.Files) (fisxDir envDir : String)
    (hf : fisxDir.toList ≠ []) (dir binding cross : Text) :
    newElements on key strtod fs fisxDir envDir dir binding cross false =
      guarded (Init.construct3 on key strtod fs (if dir.get.toList = [] then fisxDir else dir.get) binding.get cross.get) := by
  have hdir : ∀ d : String, d.toList ≠ [] →
      (do
        let b ← stdString (toBytes binding)
        let x ← stdString (toBytes cross)
        if b.toList ≠ [] then guarded (Init.construct3 on key strtod fs d b x)
        else do
          let d ← guarded (Init.construct1 on key strtod fs envDir d)
          if x.toList ≠ [] then guarded (Init.withCrossSections strtod fs x d) else Result.value d) =
        guarded (Init.construct3 on key strtod fs d binding.get cross.get) := by
    intro d hd
    simp only [do_bind, stdString_toBytes, value_bind]
    by_cases hb : binding.get.toList = []
    · rw [if_neg (not_not.2 hb)]
      have hbs : binding.get = "" := String.ext hb
      have hlen : ¬d.toList.length < 1 := by
        intro h
        exact hd (List.length_eq_zero_iff.1 (by omega))
      unfold Init.construct1 Init.construct3
      rw [if_neg hlen, hbs]
      cases hs : Init.setUp on key strtod fs d "" with
      | ok db =>
        simp only [guarded, value_bind, Outcome.ok_bind]
        by_cases hx : cross.get.toList = []
        · rw [if_neg (not_not.2 hx), if_neg (by simp [hx])]
        · rw [if_pos hx, if_pos (List.length_pos_iff.2 hx)]
      | throw e => rfl
      | ub u => rfl
      | diverge => rfl
    · rw [if_pos hb]
  unfold newElements
  by_cases hd : dir.get.toList = []
  · rw [if_pos hd, if_pos hd]
    exact hdir fisxDir hf
  · rw [if_neg hd, if_neg hd, stdString_toBytes]
    exact hdir dir.get hd

/-- **C156** (violated) With the flag of PyMca the files of binding energies and cross sections that are given do not
matter, not even whether they exist: the ones of the directory are read. -/
theorem C156_pymca_violated (on : Bool) (key : EscapeKey K) (strtod : Str → K) (fs : Init.Files) (fisxDir envDir : String)
    (dir binding cross binding' cross' : Text) :
    newElements on key strtod fs fisxDir envDir dir binding cross true =
      newElements on key strtod fs fisxDir envDir dir binding' cross' true ∧
    newElements on key strtod fs fisxDir envDir dir binding cross true =
      guarded (Init.construct2 on key strtod fs (if dir.get.toList = [] then fisxDir else dir.get) true) := by
  refine ⟨rfl, ?_⟩
  unfold newElements
  by_cases hd : dir.get.toList = []
  · rw [if_pos hd, if_pos hd]
    rfl
  · rw [if_neg hd, if_neg hd, stdString_toBytes]
    rfl

end libraryProps

/-! ## C151: single elements -/

section element

variable {K : Type} [Field K] [LinearOrder K] [IsStrictOrderedRing K]

/-- PyElement.pyx:54-55, `setBindingEnergies`: the keys go to `std::string` as they are. -/
def setElementBinding (e : Element K) (d : List (Text × K)) : Result Unit × Element K :=
  onState (stdMap d) e (fun m =>
    let r := e.setBindingEnergies (SMap.ofList (m.map (fun p => (p.1.toList, p.2))))
    (guarded r.1, r.2))

/-- PyElement.pyx:57-58, `getBindingEnergies`: the map becomes a dictionary with `bytes` as keys. -/
def getElementBinding (e : Element K) : List (Text × K) := e.binding.map (fun p => (Text.bytes (String.ofList p.1), p.2))

theorem stdMap_str : ∀ (d : List (Text × K)), (∃ n x, (Text.str n, x) ∈ d) → stdMap d = .raises .typeError
  | [], ⟨_, _, h⟩ => by cases h
  | (k, y) :: rest, ⟨n, x, h⟩ => by
    rcases List.mem_cons.1 h with h | h'
    · cases h; rfl
    · cases k with
      | str s => rfl
      | bytes s =>
        simp only [stdMap, do_bind, stdString, value_bind]
        rw [stdMap_str rest ⟨n, x, h'⟩]
        rfl

/-- **C151** (violated) The binding energies of a single element are not accepted with a name given as `str`, and they never
come back with one. -/
theorem C151_element_violated (e : Element K) (d : List (Text × K)) :
    ((∃ n x, (Text.str n, x) ∈ d) → setElementBinding e d = (.raises .typeError, e)) ∧
    (∀ n x, (Text.str n, x) ∉ getElementBinding e) := by
  constructor
  · intro h
    unfold setElementBinding
    rw [stdMap_str d h]
    rfl
  · intro n x h
    obtain ⟨p, _, hp⟩ := List.mem_map.1 h
    cases hp

end element

end Python
end Fisx
