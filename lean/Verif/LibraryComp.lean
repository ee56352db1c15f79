import Verif.LibraryProps

/-!
# Compositions: C28, C29, C30
-/

set_option linter.unusedSectionVars false

namespace Fisx

variable {K : Type} [Field K] [LinearOrder K] [IsStrictOrderedRing K]

namespace Formula

/-! ### What the parser returns -/

theorem flush_nonempty {st : Scan K} {f} (h : flush st = some f) (h1 : ∀ a ∈ st.found, a.1 ≠ []) :
    ∀ a ∈ f, a.1 ≠ [] := by
  unfold flush at h
  split at h
  · injection h with h; subst h; exact h1
  · rename_i hk
    have hl : ∀ x : K, ∀ a ∈ st.found ++ [(st.lastKey, x)], a.1 ≠ [] := by
      intro x a ha
      rcases List.mem_append.1 ha with ha | ha
      · exact h1 a ha
      · simp only [List.mem_singleton] at ha; subst ha; exact hk
    split at h
    · injection h with h; subst h; exact hl _
    · split at h
      · injection h with h; subst h; exact hl _
      · simp at h

theorem flatLoop_nonempty (s : List Char) (st st' : Scan K) (h : flatLoop s st = some st')
    (h1 : ∀ a ∈ st.found, a.1 ≠ []) (h2 : st.lastKey ≠ []) :
    (∀ a ∈ st'.found, a.1 ≠ []) ∧ st'.lastKey ≠ [] := by
  induction s generalizing st with
  | nil => simp only [flatLoop] at h; injection h with h; subst h; exact ⟨h1, h2⟩
  | cons c t ih =>
    simp only [flatLoop] at h
    cases hc : flatChar st c with
    | none => rw [hc] at h; simp at h
    | some st1 =>
      rw [hc] at h
      unfold flatChar at hc
      split at hc
      · split at hc
        · rename_i f hf
          injection hc with hc; subst hc
          exact ih _ h (flush_nonempty hf h1) (by simp)
        · simp at hc
      · split at hc <;> (injection hc with hc; subst hc; exact ih _ h h1 (by simp [h2]))

theorem addAtom_nonempty (l : List (List Char × K)) (m : SMap String K) (hl : ∀ a ∈ l, a.1 ≠ [])
    (hm : ∀ e ∈ m, e.1 ≠ "") : ∀ e ∈ l.foldl addAtom m, e.1 ≠ "" := by
  induction l generalizing m with
  | nil => exact hm
  | cons a t ih =>
    refine ih _ (fun b hb => hl b (List.mem_cons_of_mem _ hb)) ?_
    have ha : String.ofList a.1 ≠ "" := by
      intro h
      have : (String.ofList a.1).toList = "".toList := by rw [h]
      simp only [String.toList_ofList, String.toList_empty] at this
      exact hl a (by simp) this
    intro e he
    unfold addAtom at he
    split at he
    · rcases SMap.mem_insert he with he | he
      · rw [he]; exact ha
      · exact hm e he
    · rcases SMap.mem_insert he with he | he
      · rw [he]; exact ha
      · exact hm e he

theorem parseFlat_good (s : List Char) :
    (parseFlat s : SMap String K).Sorted ∧ ∀ e ∈ (parseFlat s : SMap String K), e.1 ≠ "" := by
  unfold parseFlat
  split
  · simp
  · rename_i c t
    split
    · rename_i hc
      split
      · rename_i st hst
        have hk : (∀ a ∈ st.found, a.1 ≠ []) ∧ st.lastKey ≠ [] := by
          unfold flatLoop flatChar flush at hst
          simp only [hc, if_true] at hst
          exact flatLoop_nonempty t _ st hst (by simp) (by simp)
        split
        · rename_i l hl
          refine ⟨(foldl_addAtom l [] SMap.sorted_nil).1, addAtom_nonempty l [] ?_ (by simp)⟩
          have hl' : ∀ x : K, ∀ a ∈ st.found ++ [(st.lastKey, x)], a.1 ≠ [] := by
            intro x a ha
            rcases List.mem_append.1 ha with ha | ha
            · exact hk.1 a ha
            · simp only [List.mem_singleton] at ha; subst ha; exact hk.2
          unfold flatEnd at hl
          split at hl
          · injection hl with hl; subst hl; exact hl' _
          · split at hl
            · injection hl with hl; subst hl; exact hl' _
            · simp at hl
        · simp
      · simp
    · simp

theorem parse_good (sh : K → List Char) (n : Nat) : ∀ (s : List Char) (m : SMap String K), parse sh n s = .ok m →
    m.Sorted ∧ ∀ e ∈ m, e.1 ≠ "" := by
  have hnil : ∀ m : SMap String K, (.ok [] : Outcome (SMap String K)) = .ok m → m.Sorted ∧ ∀ e ∈ m, e.1 ≠ "" := by
    intro m h
    injection h with h
    subst h
    simp
  induction n with
  | zero => intro s m h; simp [parse] at h
  | succ n ih =>
    intro s m h
    unfold parse at h
    split at h
    · exact hnil m h
    split at h
    · exact hnil m h
    split at h
    · exact hnil m h
    split at h
    · split at h
      · exact hnil m h
      · rw [Outcome.bind_eq_ok] at h
        obtain ⟨m1, _, h⟩ := h
        split at h
        · exact hnil m h
        · split at h
          · exact hnil m h
          · exact ih _ _ h
    · injection h with h
      subst h
      exact parseFlat_good s

end Formula

namespace Library

open Outcome

/-- What is assumed of the parser: its maps are maps, without empty names. -/
def ParserOK (pf : String → Outcome (SMap String K)) : Prop :=
  ∀ s m, pf s = .ok m → m.Sorted ∧ ∀ e ∈ m, e.1 ≠ ""

/-- The parser of the code satisfies it. -/
theorem parserOK (sh : K → List Char) (fuel : Nat) : ParserOK (Formula.parser sh fuel) :=
  fun s m h => Formula.parse_good sh fuel s.toList m h

/-! ### C28: formulas -/

/-- The mass of the element with a name, as `getElement` gives it. -/
def massOf (L : Library K) (n : String) : Option K :=
  match L.getElement n with
  | .ok e => some e.mass
  | _ => none

/-- The entry of a map, 0 when there is none. -/
def val (m : SMap String K) (n : String) : K := (m.find? n).getD 0

theorem getElement_of (L : Library K) (hinv : Inv L) (n : String) (hn : n ≠ "") :
    L.massOf n = (L.dict.find? n).bind (fun i => L.elements[i]?.map LibElement.mass) := by
  have hdef : L.isElementNameDefined n = L.dict.mem n := by
    unfold isElementNameDefined
    rw [if_neg (by rw [length_zero_iff]; exact hn)]
  unfold massOf getElement
  rw [hdef]
  cases hf : L.dict.find? n with
  | none => rw [if_neg (by simp [SMap.mem, hf])]; rfl
  | some i =>
    rw [if_pos (by simp [SMap.mem, hf])]
    have h := (hinv n i).1 hf
    unfold getElementNames at h
    have hlt := (List.getElem?_eq_some_iff.1 h).1
    simp only [List.length_map] at hlt
    simp only [vget_lt _ _ hlt, Option.bind_some, List.getElem?_eq_getElem hlt]
    rfl

theorem masses_none (L : Library K) (hinv : Inv L) (f : List (String × K)) (hne : ∀ e ∈ f, e.1 ≠ "") :
    (L.masses f = none ↔ ∃ e ∈ f, L.massOf e.1 = none) := by
  induction f with
  | nil => simp [masses]
  | cons e rest ih =>
    obtain ⟨n, x⟩ := e
    have hn := hne (n, x) (by simp)
    have ih := ih (fun e he => hne e (List.mem_cons_of_mem _ he))
    have hm := getElement_of L hinv n hn
    unfold masses
    simp only [List.mem_cons, exists_eq_or_imp]
    rw [hm]
    cases hf : L.dict.find? n with
    | none => simp
    | some i =>
      dsimp only
      cases he : L.elements[i]? with
      | none => simp [he]
      | some el => simp [he, ih]

theorem masses_some (L : Library K) (hinv : Inv L) (f : List (String × K)) (hne : ∀ e ∈ f, e.1 ≠ "") (M : String → K)
    (hM : ∀ e ∈ f, L.massOf e.1 = some (M e.1)) : L.masses f = some (f.map (fun e => (e.1, e.2 * M e.1))) := by
  induction f with
  | nil => rfl
  | cons e rest ih =>
    obtain ⟨n, x⟩ := e
    have hn := hne (n, x) (by simp)
    have ih := ih (fun e he => hne e (List.mem_cons_of_mem _ he)) (fun e he => hM e (List.mem_cons_of_mem _ he))
    have hm := hM (n, x) (by simp)
    dsimp only at hm
    rw [getElement_of L hinv n hn] at hm
    unfold masses
    cases hf : L.dict.find? n with
    | none => rw [hf] at hm; cases hm
    | some i =>
      rw [hf] at hm
      dsimp only
      cases he : L.elements[i]? with
      | none => simp [he] at hm
      | some el =>
        simp only [he, Option.bind_some, Option.map_some, Option.some.injEq] at hm
        simp [ih, hm]

/-- The weighted sum of the masses of a formula. -/
def formulaMass (M : String → K) (f : SMap String K) : K := (f.map (fun e => e.2 * M e.1)).sum

theorem formula_eq (pf : String → Outcome (SMap String K)) (hpf : ParserOK pf) (L : Library K) (hinv : Inv L)
    (name : String) (f : SMap String K) (hf : pf name = .ok f) (M : String → K)
    (hM : ∀ e ∈ f, L.massOf e.1 = some (M e.1)) :
    L.formula pf name = .ok (f.map (fun e => (e.1, e.2 * M e.1 / formulaMass M f))) := by
  unfold formula
  rw [hf, ok_bind, masses_some L hinv f (hpf name f hf).2 M hM]
  have : SMap.total (f.map (fun e => (e.1, e.2 * M e.1)) : SMap String K) = formulaMass M f := by
    unfold SMap.total formulaMass
    rw [List.map_map]
    rfl
  simp only [this, List.map_map]
  rfl

theorem formula_unknown (pf : String → Outcome (SMap String K)) (hpf : ParserOK pf) (L : Library K) (hinv : Inv L)
    (name : String) (f : SMap String K) (hf : pf name = .ok f) (h : ∃ e ∈ f, L.massOf e.1 = none) :
    L.formula pf name = .ok [] := by
  unfold formula
  rw [hf, ok_bind, (masses_none L hinv f (hpf name f hf).2).2 h]
  rfl

theorem formulaMass_pos (M : String → K) (f : SMap String K) (hne : f ≠ []) (h : ∀ e ∈ f, 0 < e.2)
    (hM : ∀ e ∈ f, 0 < M e.1) : 0 < formulaMass M f := by
  unfold formulaMass
  apply List.sum_pos
  · intro x hx
    obtain ⟨e, he, rfl⟩ := List.mem_map.1 hx
    exact mul_pos (h e he) (hM e he)
  · simpa using hne

variable [Trans K] [Trig K]

/-- C28: after every history, for a formula that is parsed to the numbers of atoms `f` of known elements of masses `M`,
`getCompositionFromFormula` returns for each of them the mass fraction `n_i M_i / Σ n_j M_j`; the fractions are positive
and sum to one when the numbers of atoms and the masses are positive. -/
theorem C28_mass_fractions (pf : String → Outcome (SMap String K)) (hpf : ParserOK pf) (fuel : Nat) (on : Bool)
    (key : EscapeKey K) (ops : List (Op K)) (name : String) (f : SMap String K) (hf : pf name = .ok f) (hne : f ≠ [])
    (M : String → K) (hM : ∀ e ∈ f, (run pf fuel (empty on key) ops).massOf e.1 = some (M e.1))
    (hpos : ∀ e ∈ f, 0 < e.2) (hMpos : ∀ e ∈ f, 0 < M e.1) :
    ∃ r, (run pf fuel (empty on key) ops).formula pf name = .ok r ∧ r.keys = f.keys
      ∧ (∀ n x, f.find? n = some x → r.find? n = some (x * M n / (f.map (fun e => e.2 * M e.1)).sum))
      ∧ (∀ e ∈ r, 0 < e.2) ∧ (r.map Prod.snd).sum = 1 := by
  refine ⟨_, formula_eq pf hpf _ (inv_run pf fuel on key ops) name f hf M hM, ?_, ?_, ?_, ?_⟩
  · simp [SMap.keys, List.map_map, Function.comp_def]
  · intro n x hx
    have := SMap.find?_mapVal f (fun e => e.2 * M e.1 / formulaMass M f) n
    rw [this, hx]
    rfl
  · intro e he
    obtain ⟨e', he', rfl⟩ := List.mem_map.1 he
    exact div_pos (mul_pos (hpos e' he') (hMpos e' he')) (formulaMass_pos M f hne hpos hMpos)
  · rw [List.map_map]
    have : (Prod.snd ∘ fun e : String × K => (e.1, e.2 * M e.1 / formulaMass M f))
        = fun e => e.2 * M e.1 / formulaMass M f := rfl
    rw [this]
    have h2 : (f.map (fun e : String × K => e.2 * M e.1 / formulaMass M f)).sum
        = (f.map (fun e => e.2 * M e.1)).sum / formulaMass M f := by
      rw [← Material.sum_div, List.map_map]
      rfl
    rw [h2]
    exact div_self (formulaMass_pos M f hne hpos hMpos).ne'

/-- C28: when an element is not known, and when the formula is not understood, the result is empty. -/
theorem C28_unknown_element (pf : String → Outcome (SMap String K)) (hpf : ParserOK pf) (fuel : Nat) (on : Bool)
    (key : EscapeKey K) (ops : List (Op K)) (name : String) (f : SMap String K) (hf : pf name = .ok f)
    (h : f = [] ∨ ∃ e ∈ f, (run pf fuel (empty on key) ops).getElement e.1 = .throw .invalidArgument) :
    (run pf fuel (empty on key) ops).formula pf name = .ok [] := by
  rcases h with rfl | ⟨e, he, h⟩
  · unfold formula
    rw [hf]
    rfl
  · refine formula_unknown pf hpf _ (inv_run pf fuel on key ops) name f hf ⟨e, he, ?_⟩
    unfold massOf
    rw [h]

/-- All the numbers of a formula are positive. -/
def Positive : Formula.Fm → Prop
  | .nil => True
  | .atom _ num rest => 0 < (Formula.optValue num : K) ∧ Positive rest
  | .group body num rest => 0 < (Formula.optValue num : K) ∧ Positive body ∧ Positive rest

theorem atoms_nonneg (x : List Char) (g : Formula.Fm) (h : Positive (K := K) g) : 0 ≤ (g.atoms x : K) := by
  induction g with
  | nil => simp [Formula.Fm.atoms]
  | atom sym num rest ih =>
    simp only [Formula.Fm.atoms]
    have := ih h.2
    have h1 := h.1
    split <;> linarith
  | group body num rest ih1 ih2 =>
    simp only [Formula.Fm.atoms]
    have := mul_nonneg h.1.le (ih1 h.2.1)
    have := ih2 h.2.2
    linarith

theorem atoms_pos (x : List Char) (g : Formula.Fm) (h : Positive (K := K) g) (ho : g.Occurs x) :
    0 < (g.atoms x : K) := by
  induction g with
  | nil => exact absurd ho (by simp [Formula.Fm.Occurs])
  | atom sym num rest ih =>
    simp only [Formula.Fm.atoms]
    have h0 := atoms_nonneg x rest h.2
    have h1 := h.1
    rcases ho with ho | ho
    · rw [if_pos ho]; linarith
    · have := ih h.2 ho
      split <;> linarith
  | group body num rest ih1 ih2 =>
    simp only [Formula.Fm.atoms]
    have h0 := atoms_nonneg x rest h.2.2
    have hb := mul_nonneg h.1.le (atoms_nonneg x body h.2.1)
    rcases ho with ho | ho
    · have := mul_pos h.1 (ih1 h.2.1 ho); linarith
    · have := ih2 h.2.2 ho; linarith

/-- C28 for the formulas of the grammar: a well formed formula with positive numbers (within the limits of
`C27_group_formula_partial`), all elements of which are known with positive masses: the mass fraction of the element `x`
is the number of its atoms times its mass, divided by the mass of the formula. -/
theorem C28_grammar (sh : K → List Char) (fuel : Nat) (on : Bool) (key : EscapeKey K) (ops : List (Op K))
    (g : Formula.Fm) (hwf : g.WF) (hsv : g.Served []) (hex : g.Exact sh) (hgpos : Positive (K := K) g)
    (hne : g ≠ .nil) (M : String → K) :
    ∃ d, ∀ d', d ≤ d' →
      (∀ x, g.Occurs x → ∃ e, (run (Formula.parser sh d') fuel (empty on key) ops).getElement (String.ofList x) = .ok e
          ∧ e.mass = M (String.ofList x) ∧ 0 < e.mass) →
      ∃ r f, (run (Formula.parser sh d') fuel (empty on key) ops).formula (Formula.parser sh d') (String.ofList g.text) = .ok r
        ∧ Formula.Counts g f
        ∧ (∀ x, g.Occurs x → r.find? (String.ofList x)
            = some (g.atoms x * M (String.ofList x) / (f.map (fun e => e.2 * M e.1)).sum))
        ∧ (∀ x, ¬ g.Occurs x → r.find? (String.ofList x) = none)
        ∧ (∀ e ∈ r, 0 < e.2) ∧ (r.map Prod.snd).sum = 1 := by
  obtain ⟨f, ⟨n, hn⟩, hc⟩ := Formula.C27_group_formula_partial sh g hwf hsv hex
  refine ⟨n, fun d' hd hel => ?_⟩
  have hf : Formula.parser sh d' (String.ofList g.text) = .ok f := by
    unfold Formula.parser
    rw [String.toList_ofList]
    obtain ⟨k, rfl⟩ := Nat.exists_eq_add_of_le hd
    exact Formula.parse_mono sh n k _ _ hn
  have hmem : ∀ e ∈ f, ∃ x, e.1 = String.ofList x ∧ g.Occurs x ∧ e.2 = g.atoms x := by
    intro e he
    have h1 := SMap.find?_of_mem hc.1 (k := e.1) (v := e.2) he
    have h2 : e.1 = String.ofList e.1.toList := by simp
    rw [h2] at h1
    by_cases ho : g.Occurs e.1.toList
    · rw [(hc.2 _).1 ho] at h1
      injection h1 with h1
      exact ⟨_, h2, ho, h1.symm⟩
    · rw [(hc.2 _).2 ho] at h1
      cases h1
  have hfne : f ≠ [] := by
    intro h0
    obtain ⟨x, hx⟩ := Formula.occurs_of_ne_nil g hwf hne
    have := (hc.2 x).1 hx
    rw [h0] at this
    cases this
  have hM : ∀ e ∈ f, (run (Formula.parser sh d') fuel (empty on key) ops).massOf e.1 = some (M e.1) := by
    intro e he
    obtain ⟨x, hx, ho, _⟩ := hmem e he
    obtain ⟨el, h1, h2, _⟩ := hel x ho
    unfold massOf
    rw [hx, h1]
    simp [h2]
  obtain ⟨r, h1, h2, h3, h4, h5⟩ := C28_mass_fractions (Formula.parser sh d') (parserOK sh d') fuel on key ops
    (String.ofList g.text) f hf hfne M hM
    (fun e he => by obtain ⟨x, _, ho, hx⟩ := hmem e he; rw [hx]; exact atoms_pos x g hgpos ho)
    (fun e he => by
      obtain ⟨x, hx, ho, _⟩ := hmem e he
      obtain ⟨el, _, h2, h3⟩ := hel x ho
      rw [hx, ← h2]; exact h3)
  refine ⟨r, f, h1, hc, fun x hx => h3 _ _ ((hc.2 x).1 hx), fun x hx => ?_, h4, h5⟩
  rw [SMap.find?_eq_none_iff]
  intro e he hk
  have : e.1 ∈ f.keys := by
    rw [← h2]
    exact List.mem_map_of_mem he
  obtain ⟨e', he', hk'⟩ := List.mem_map.1 this
  obtain ⟨y, hy, ho, _⟩ := hmem e' he'
  rw [hk', hk] at hy
  exact hx (Formula.ofList_inj hy ▸ ho)

/-! ### C29: specification -/

/-- The name is not a formula of known elements. -/
def NotFormula (pf : String → Outcome (SMap String K)) (L : Library K) (name : String) : Prop :=
  ∃ f, pf name = .ok f ∧ (f = [] ∨ ∃ e ∈ f, L.massOf e.1 = none)

/-- The mixture of substances with elemental fractions `G`, in the proportions `c`; `none` as soon as one of them is
not known. -/
noncomputable def mixture (c : SMap String K) (G : String → Option (String → K)) : Option (String → K) :=
  open Classical in
  if ∀ e ∈ c, (G e.1).isSome = true then
    some (fun x => (c.map (fun e => e.2 / SMap.total c * (G e.1).getD (fun _ => 0) x)).sum)
  else none

/-- Elemental mass fractions by substitution: a name is a formula of known elements; or the name of a material, made of
substances that have a name; or it is unknown (`none`). -/
inductive Resolves (pf : String → Outcome (SMap String K)) (L : Library K) : String → Option (String → K) → Prop
  | formula (name : String) (f : SMap String K) (M : String → K) (hf : pf name = .ok f) (hne : f ≠ [])
      (hM : ∀ e ∈ f, L.massOf e.1 = some (M e.1)) (h0 : formulaMass M f ≠ 0) :
      Resolves pf L name (some (fun x => val f x * M x / formulaMass M f))
  | unknown (name : String) (hn : NotFormula pf L name) (hm : L.getMaterial name = .throw .invalidArgument) :
      Resolves pf L name none
  | material (name : String) (m : Material K) (G : String → Option (String → K)) (hn : NotFormula pf L name)
      (hm : L.getMaterial name = .ok m) (hne : m.composition ≠ []) (h : ∀ e ∈ m.composition, Resolves pf L e.1 (G e.1)) :
      Resolves pf L name (mixture m.composition G)

/-- Some substance needed is unknown. -/
inductive NeedsUnknown (pf : String → Outcome (SMap String K)) (L : Library K) : String → Prop
  | here (name : String) (hn : NotFormula pf L name) (hm : L.getMaterial name = .throw .invalidArgument) :
      NeedsUnknown pf L name
  | inside (name : String) (m : Material K) (n : String) (w : K) (hn : NotFormula pf L name)
      (hm : L.getMaterial name = .ok m) (hmem : (n, w) ∈ m.composition) (h : NeedsUnknown pf L n) :
      NeedsUnknown pf L name

/-- The materials have proper compositions: the ones every `Material` object has (C02). -/
def MatsValid (L : Library K) : Prop := ∀ n m, L.getMaterial n = .ok m → m.Valid

/-! ### C29: sums -/

theorem val_insert (m : SMap String K) (k : String) (v : K) (x : String) :
    val (m.insert k v) x = if k = x then v else val m x := by
  unfold val
  rw [SMap.find?_insert]
  split <;> rfl

theorem val_addTo (m : SMap String K) (k : String) (v : K) (x : String) :
    val (addTo m k v) x = val m x + if k = x then v else 0 := by
  unfold addTo
  rw [val_insert]
  split
  · rename_i h; subst h; rfl
  · simp

theorem addScaled_val (c : List (String × K)) (acc : SMap String K) (w : K) (x : String) :
    val (addScaled acc c w) x = val acc x + (c.map (fun e => if e.1 = x then e.2 * w else 0)).sum := by
  induction c generalizing acc with
  | nil => simp [addScaled]
  | cons e c ih =>
    have : addScaled acc (e :: c) w = addScaled (addTo acc e.1 (e.2 * w)) c w := rfl
    rw [this, ih, val_addTo, List.map_cons, List.sum_cons, add_assoc]

theorem sum_val (c : SMap String K) (hs : c.Sorted) (w : K) (x : String) :
    (c.map (fun e => if e.1 = x then e.2 * w else 0)).sum = val c x * w := by
  induction c with
  | nil => simp [val]
  | cons e c ih =>
    rw [SMap.sorted_cons] at hs
    rw [List.map_cons, List.sum_cons, ih hs.2]
    unfold val
    rw [SMap.find?_cons]
    by_cases h : e.1 = x
    · subst h
      have : SMap.find? c e.1 = none := by
        rw [SMap.find?_eq_none_iff]
        intro e' he'
        exact (hs.1 e' he').ne'
      simp [this]
    · simp [h]

theorem addScaled_sorted (c : List (String × K)) (acc : SMap String K) (w : K) (h : acc.Sorted) :
    (addScaled acc c w).Sorted := by
  induction c generalizing acc with
  | nil => exact h
  | cons e c ih => exact ih _ (SMap.insert_sorted h _ _)

theorem total_addTo (m : SMap String K) (hs : m.Sorted) (k : String) (v : K) :
    SMap.total (addTo m k v) = SMap.total m + v := by
  unfold addTo
  have := SMap.total_insert m k ((m.find? k).getD 0 + v) hs
  linarith

theorem addScaled_total (c : List (String × K)) (acc : SMap String K) (w : K) (h : acc.Sorted) :
    SMap.total (addScaled acc c w) = SMap.total acc + SMap.total c * w := by
  induction c generalizing acc with
  | nil => simp [addScaled, SMap.total]
  | cons e c ih =>
    have : addScaled acc (e :: c) w = addScaled (addTo acc e.1 (e.2 * w)) c w := rfl
    rw [this, ih (addTo acc e.1 (e.2 * w)) (SMap.insert_sorted h _ _), total_addTo _ h, SMap.total_cons]
    ring

theorem addScaled_mem (c : List (String × K)) (acc : SMap String K) (w : K) (P : String → K → Prop)
    (ha : ∀ e ∈ acc, P e.1 e.2) (hadd : ∀ n x y, P n x → (n, y) ∈ c → P n (x + y * w))
    (hnew : ∀ n y, (n, y) ∈ c → P n (0 + y * w)) : ∀ e ∈ addScaled acc c w, P e.1 e.2 := by
  induction c generalizing acc with
  | nil => exact ha
  | cons e c ih =>
    have : addScaled acc (e :: c) w = addScaled (addTo acc e.1 (e.2 * w)) c w := rfl
    rw [this]
    refine ih _ ?_ (fun n x y hp hy => hadd n x y hp (List.mem_cons_of_mem _ hy))
      (fun n y hy => hnew n y (List.mem_cons_of_mem _ hy))
    intro e' he'
    unfold addTo at he'
    rcases SMap.mem_insert he' with he' | he'
    · subst he'
      dsimp only
      cases hf : SMap.find? acc e.1 with
      | none => exact hnew e.1 e.2 (by simp)
      | some x => exact hadd e.1 x e.2 (ha _ (SMap.mem_of_find? hf)) (by simp)
    · exact ha e' he'

theorem addTo_ne_nil (m : SMap String K) (k : String) (v : K) : addTo m k v ≠ [] := by
  intro h
  have := SMap.find?_insert m k k ((m.find? k).getD 0 + v)
  unfold addTo at h
  rw [h, if_pos rfl] at this
  cases this

theorem addScaled_ne_nil (c : List (String × K)) (acc : SMap String K) (w : K) (h : acc ≠ [] ∨ c ≠ []) :
    addScaled acc c w ≠ [] := by
  induction c generalizing acc with
  | nil => simpa [addScaled] using h
  | cons e c ih => exact ih _ (Or.inl (addTo_ne_nil _ _ _))

/-- The sum of the compositions of the components. -/
def mixFold (G : String → SMap String K) (items : List (String × K)) (acc : SMap String K) : SMap String K :=
  items.foldl (fun acc e => addScaled acc (G e.1) e.2) acc

theorem mixFold_sorted (G : String → SMap String K) (items : List (String × K)) (acc : SMap String K) (h : acc.Sorted) :
    (mixFold G items acc).Sorted := by
  induction items generalizing acc with
  | nil => exact h
  | cons e items ih => exact ih _ (addScaled_sorted _ _ _ h)

theorem mixFold_val (G : String → SMap String K) (items : List (String × K)) (acc : SMap String K)
    (hG : ∀ e ∈ items, (G e.1).Sorted) (x : String) :
    val (mixFold G items acc) x = val acc x + (items.map (fun e => e.2 * val (G e.1) x)).sum := by
  induction items generalizing acc with
  | nil => simp [mixFold]
  | cons e items ih =>
    have : mixFold G (e :: items) acc = mixFold G items (addScaled acc (G e.1) e.2) := rfl
    rw [this, ih _ (fun e he => hG e (List.mem_cons_of_mem _ he)), addScaled_val, sum_val _ (hG e (by simp)),
      List.map_cons, List.sum_cons]
    ring

theorem mixFold_total (G : String → SMap String K) (items : List (String × K)) (acc : SMap String K) (h : acc.Sorted) :
    SMap.total (mixFold G items acc) = SMap.total acc + (items.map (fun e => SMap.total (G e.1) * e.2)).sum := by
  induction items generalizing acc with
  | nil => simp [mixFold]
  | cons e items ih =>
    have : mixFold G (e :: items) acc = mixFold G items (addScaled acc (G e.1) e.2) := rfl
    rw [this, ih _ (addScaled_sorted _ _ _ h), addScaled_total _ _ _ h, List.map_cons, List.sum_cons, add_assoc]

theorem mixFold_ne_nil (G : String → SMap String K) (items : List (String × K)) (acc : SMap String K)
    (hG : ∀ e ∈ items, G e.1 ≠ []) (h : acc ≠ [] ∨ items ≠ []) : mixFold G items acc ≠ [] := by
  induction items generalizing acc with
  | nil => simpa [mixFold] using h
  | cons e items ih =>
    exact ih _ (fun e he => hG e (List.mem_cons_of_mem _ he)) (Or.inl (addScaled_ne_nil _ _ _ (Or.inr (hG e (by simp)))))

theorem mixFold_pos (G : String → SMap String K) (items : List (String × K)) (acc : SMap String K)
    (hw : ∀ e ∈ items, 0 < e.2) (hG : ∀ e ∈ items, ∀ e' ∈ G e.1, 0 < e'.2) (h : ∀ e ∈ acc, 0 < e.2) :
    ∀ e ∈ mixFold G items acc, 0 < e.2 := by
  induction items generalizing acc with
  | nil => exact h
  | cons e items ih =>
    refine ih _ (fun e he => hw e (List.mem_cons_of_mem _ he)) (fun e he => hG e (List.mem_cons_of_mem _ he)) ?_
    refine addScaled_mem _ _ _ (fun _ x => 0 < x) h ?_ ?_
    · intro n x y hx hy
      have := mul_pos (hG e (by simp) _ hy) (hw e (by simp))
      dsimp only at this
      linarith
    · intro n y hy
      have := mul_pos (hG e (by simp) _ hy) (hw e (by simp))
      dsimp only at this
      linarith

theorem mixFold_keys (P : String → Prop) (G : String → SMap String K) (items : List (String × K)) (acc : SMap String K)
    (hG : ∀ e ∈ items, ∀ e' ∈ G e.1, P e'.1) (h : ∀ e ∈ acc, P e.1) : ∀ e ∈ mixFold G items acc, P e.1 := by
  induction items generalizing acc with
  | nil => exact h
  | cons e items ih =>
    refine ih _ (fun e he => hG e (List.mem_cons_of_mem _ he)) ?_
    refine addScaled_mem _ _ _ (fun n _ => P n) h ?_ ?_
    · intro n x y hx hy
      exact hx
    · intro n y hy
      exact hG e (by simp) _ hy

theorem mixLoop_fold (f : String → Outcome (SMap String K)) (G : String → SMap String K) (items : List (String × K))
    (acc : SMap String K) (h : ∀ e ∈ items, f e.1 = .ok (G e.1)) (hne : ∀ e ∈ items, G e.1 ≠ []) :
    mixLoop f items acc = .ok (mixFold G items acc) := by
  induction items generalizing acc with
  | nil => rfl
  | cons e items ih =>
    obtain ⟨n, w⟩ := e
    have h1 := h (n, w) (by simp)
    have h2 := hne (n, w) (by simp)
    dsimp only at h1 h2
    unfold mixLoop
    rw [h1, ok_bind, if_neg h2]
    exact ih _ (fun e he => h e (List.mem_cons_of_mem _ he)) (fun e he => hne e (List.mem_cons_of_mem _ he))

theorem mixLoop_empty (f : String → Outcome (SMap String K)) (G : String → SMap String K) (items : List (String × K))
    (acc : SMap String K) (h : ∀ e ∈ items, f e.1 = .ok (G e.1)) (hne : ∃ e ∈ items, G e.1 = []) :
    mixLoop f items acc = .ok [] := by
  induction items generalizing acc with
  | nil => obtain ⟨e, he, _⟩ := hne; simp at he
  | cons e items ih =>
    obtain ⟨n, w⟩ := e
    have h1 := h (n, w) (by simp)
    dsimp only at h1
    unfold mixLoop
    rw [h1, ok_bind]
    by_cases h2 : G n = []
    · rw [if_pos h2]; rfl
    · rw [if_neg h2]
      refine ih _ (fun e he => h e (List.mem_cons_of_mem _ he)) ?_
      obtain ⟨e, he, h3⟩ := hne
      rcases List.mem_cons.1 he with rfl | he
      · exact absurd h3 h2
      · exact ⟨e, he, h3⟩

theorem mixLoop_cases (f : String → Outcome (SMap String K)) (items : List (String × K)) (acc r : SMap String K)
    (h : mixLoop f items acc = .ok r) :
    (r = [] ∧ ∃ e ∈ items, f e.1 = .ok []) ∨ ∃ G : String → SMap String K,
      (∀ e ∈ items, f e.1 = .ok (G e.1) ∧ G e.1 ≠ []) ∧ r = mixFold G items acc := by
  induction items generalizing acc with
  | nil =>
    right
    unfold mixLoop at h
    injection h with h
    exact ⟨fun _ => [], by simp, h.symm⟩
  | cons e items ih =>
    obtain ⟨n, w⟩ := e
    unfold mixLoop at h
    rw [bind_eq_ok] at h
    obtain ⟨c, hc, h⟩ := h
    split at h
    · rename_i hnil
      left
      injection h with h
      exact ⟨h.symm, (n, w), by simp, by rw [hc, hnil]⟩
    · rename_i hnil
      rcases ih _ h with ⟨h1, e, he, h2⟩ | ⟨G, h1, h2⟩
      · exact Or.inl ⟨h1, e, by simp [he], h2⟩
      · right
        let G' : String → SMap String K := fun x => match f x with | .ok c => c | _ => []
        have hG' : ∀ e ∈ items, G' e.1 = G e.1 := by
          intro e he
          simp only [G', (h1 e he).1]
        have hGn : G' n = c := by simp only [G', hc]
        refine ⟨G', ?_, ?_⟩
        · intro e he
          rcases List.mem_cons.1 he with rfl | he
          · dsimp only
            rw [hGn]
            exact ⟨hc, hnil⟩
          · rw [hG' e he]
            exact h1 e he
        · rw [h2]
          have : mixFold G' ((n, w) :: items) acc = mixFold G' items (addScaled acc c w) := by
            show mixFold G' items (addScaled acc (G' n) w) = _
            rw [hGn]
          rw [this]
          have hcongr : ∀ (l : List (String × K)) (a : SMap String K), (∀ e ∈ l, G' e.1 = G e.1) →
              mixFold G l a = mixFold G' l a := by
            intro l
            induction l with
            | nil => intro a _; rfl
            | cons e l ihl =>
              intro a hl
              show mixFold G l (addScaled a (G e.1) e.2) = mixFold G' l (addScaled a (G' e.1) e.2)
              rw [hl e (by simp)]
              exact ihl _ (fun e he => hl e (List.mem_cons_of_mem _ he))
          exact hcongr _ _ hG'

theorem total_pos_of (c : SMap String K) (hne : c ≠ []) (h : ∀ e ∈ c, 0 < e.2) : 0 < SMap.total c := by
  unfold SMap.total
  apply List.sum_pos
  · intro x hx
    obtain ⟨e, he, rfl⟩ := List.mem_map.1 hx
    exact h e he
  · simpa using hne

theorem normalise_props (c : SMap String K) (hne : c ≠ []) (h : ∀ e ∈ c, 0 < e.2) :
    (∀ e ∈ normalise c, 0 < e.2) ∧ ((normalise c).map Prod.snd).sum = 1 ∧ normalise c ≠ [] := by
  have ht := total_pos_of c hne h
  refine ⟨?_, ?_, by simpa [normalise] using hne⟩
  · intro e he
    obtain ⟨e', he', rfl⟩ := List.mem_map.1 he
    exact div_pos (h e' he') ht
  · have : (normalise c).map Prod.snd = (c.map Prod.snd).map (fun a => a / SMap.total c) := by
      unfold normalise
      rw [List.map_map, List.map_map]
      rfl
    rw [this, Material.sum_div]
    exact div_self ht.ne'

theorem normalise_val (c : SMap String K) (x : String) : val (normalise c) x = val c x / SMap.total c := by
  unfold val normalise
  rw [SMap.find?_mapVal c (fun e => e.2 / SMap.total c) x]
  cases c.find? x <;> simp

theorem normalise_sorted (c : SMap String K) (h : c.Sorted) : (normalise c).Sorted :=
  SMap.sorted_mapVal h (fun e => e.2 / SMap.total c)

/-! ### C29: `getComposition(name)` -/

theorem formula_cases (pf : String → Outcome (SMap String K)) (hpf : ParserOK pf) (L : Library K) (hinv : Inv L)
    (name : String) (r : SMap String K) (h : L.formula pf name = .ok r) :
    (r = [] ∧ NotFormula pf L name)
      ∨ (r ≠ [] ∧ ∃ f M, pf name = .ok f ∧ f ≠ [] ∧ (∀ e ∈ f, L.massOf e.1 = some (M e.1))
          ∧ r = f.map (fun e => (e.1, e.2 * M e.1 / formulaMass M f))) := by
  have h' := h
  unfold formula at h
  rw [bind_eq_ok] at h
  obtain ⟨f, hf, h⟩ := h
  by_cases hn : f = [] ∨ ∃ e ∈ f, L.massOf e.1 = none
  · left
    refine ⟨?_, f, hf, hn⟩
    rcases hn with rfl | hn
    · have : (.ok [] : Outcome (SMap String K)) = .ok r := h
      injection this with this
      exact this.symm
    · rw [formula_unknown pf hpf L hinv name f hf hn] at h'
      injection h' with h'
      exact h'.symm
  · right
    rw [not_or, not_exists] at hn
    have hM : ∀ e ∈ f, L.massOf e.1 = some ((L.massOf e.1).getD 0) := by
      intro e he
      cases hm : L.massOf e.1 with
      | none => exact absurd ⟨he, hm⟩ (hn.2 e)
      | some x => rfl
    rw [formula_eq pf hpf L hinv name f hf (fun n => (L.massOf n).getD 0) hM] at h'
    injection h' with h'
    subst h'
    exact ⟨by simpa using hn.1, f, fun n => (L.massOf n).getD 0, hf, hn.1, hM, rfl⟩

theorem formula_of_not (pf : String → Outcome (SMap String K)) (hpf : ParserOK pf) (L : Library K) (hinv : Inv L)
    (name : String) (h : NotFormula pf L name) : L.formula pf name = .ok [] := by
  obtain ⟨f, hf, h⟩ := h
  rcases h with rfl | h
  · unfold formula
    rw [hf]
    rfl
  · exact formula_unknown pf hpf L hinv name f hf h

/-- What is needed of the names involved: formulas have positive numbers of atoms; elements have positive masses. `S` is
a set of names that contains the components of its materials. -/
structure Proper (pf : String → Outcome (SMap String K)) (L : Library K) (S : String → Prop) : Prop where
  counts : ∀ n f, S n → pf n = .ok f → ∀ e ∈ f, 0 < e.2
  masses : ∀ n x, L.massOf n = some x → 0 < x
  closed : ∀ n m, S n → L.getMaterial n = .ok m → ∀ e ∈ m.composition, S e.1

/-- One level of `getComposition(name)`. -/
theorem comp_cases (pf : String → Outcome (SMap String K)) (hpf : ParserOK pf) (L : Library K) (hinv : Inv L)
    (fuel : Nat) (name : String) (c : SMap String K) (h : comp pf L (fuel + 1) name = .ok c) :
    (∃ f M, pf name = .ok f ∧ f ≠ [] ∧ (∀ e ∈ f, L.massOf e.1 = some (M e.1))
        ∧ c = f.map (fun e => (e.1, e.2 * M e.1 / formulaMass M f)))
      ∨ (NotFormula pf L name ∧ L.getMaterial name = .throw .invalidArgument ∧ c = [])
      ∨ (NotFormula pf L name ∧ ∃ m, L.getMaterial name = .ok m ∧ m.composition ≠ []
          ∧ mixLoop (comp pf L fuel) (normalise m.composition) [] = .ok c) := by
  unfold comp at h
  rw [bind_eq_ok] at h
  obtain ⟨r, hr, h⟩ := h
  rcases formula_cases pf hpf L hinv name r hr with ⟨rfl, hn⟩ | ⟨hne, f, M, h1, h2, h3, h4⟩
  · rw [if_neg (by simp)] at h
    right
    split at h
    · rename_i hl
      left
      have : (.ok [] : Outcome (SMap String K)) = .ok c := h
      injection this with this
      exact ⟨hn, (getMaterial_throw_iff L name).2 hl, this.symm⟩
    · rename_i m hl
      right
      split at h
      · cases h
      · rename_i hlen
        refine ⟨hn, m, (getMaterial_ok_iff L name m).2 hl, ?_, h⟩
        intro h0
        rw [h0] at hlen
        simp at hlen
  · rw [if_pos (List.length_pos_iff.2 hne)] at h
    have : (.ok r : Outcome (SMap String K)) = .ok c := h
    injection this with this
    subst this
    exact Or.inl ⟨f, M, h1, h2, h3, h4⟩

theorem formula_result_sorted (f : SMap String K) (hs : f.Sorted) (g : String × K → K) :
    SMap.Sorted (f.map (fun e => (e.1, g e)) : SMap String K) := SMap.sorted_mapVal hs g

theorem comp_sorted (pf : String → Outcome (SMap String K)) (hpf : ParserOK pf) (L : Library K) (hinv : Inv L)
    (fuel : Nat) : ∀ (name : String) (c : SMap String K), comp pf L fuel name = .ok c → c.Sorted := by
  induction fuel with
  | zero => intro name c h; simp [comp] at h
  | succ fuel ih =>
    intro name c h
    rcases comp_cases pf hpf L hinv fuel name c h with ⟨f, M, hf, _, _, rfl⟩ | ⟨_, _, rfl⟩ | ⟨_, m, _, _, h⟩
    · exact SMap.sorted_mapVal (hpf name f hf).1 _
    · exact SMap.sorted_nil
    · rcases mixLoop_cases _ _ _ _ h with ⟨rfl, _⟩ | ⟨G, _, rfl⟩
      · exact SMap.sorted_nil
      · exact mixFold_sorted _ _ _ SMap.sorted_nil

theorem getMaterial_of_not_throw (L : Library K) (name : String) (m : Material K) (h : L.getMaterial name = .ok m) :
    L.lookup name = some m := (getMaterial_ok_iff L name m).1 h

/-- Positive fractions, summing to one, of known elements. -/
theorem comp_normalised (pf : String → Outcome (SMap String K)) (hpf : ParserOK pf) (L : Library K) (hinv : Inv L)
    (hv : MatsValid L) (S : String → Prop) (hS : Proper pf L S) (fuel : Nat) :
    ∀ (name : String) (c : SMap String K), S name → comp pf L fuel name = .ok c → c ≠ [] →
      (∀ e ∈ c, 0 < e.2) ∧ SMap.total c = 1 ∧ ∀ e ∈ c, ∃ x, L.massOf e.1 = some x := by
  induction fuel with
  | zero => intro name c _ h; simp [comp] at h
  | succ fuel ih =>
    intro name c hs h hne
    rcases comp_cases pf hpf L hinv fuel name c h with ⟨f, M, hf, hfne, hM, rfl⟩ | ⟨_, _, rfl⟩ | ⟨_, m, hm, hmne, h⟩
    · have hp : ∀ e ∈ f, 0 < e.2 := hS.counts name f hs hf
      have hMp : ∀ e ∈ f, 0 < M e.1 := fun e he => hS.masses _ _ (hM e he)
      have hT := formulaMass_pos M f hfne hp hMp
      refine ⟨?_, ?_, ?_⟩
      · intro e he
        obtain ⟨e', he', rfl⟩ := List.mem_map.1 he
        exact div_pos (mul_pos (hp e' he') (hMp e' he')) hT
      · unfold SMap.total
        have : (f.map (fun e => (e.1, e.2 * M e.1 / formulaMass M f))).map Prod.snd
            = (f.map (fun e => e.2 * M e.1)).map (fun a => a / formulaMass M f) := by
          rw [List.map_map, List.map_map]; rfl
        rw [this, Material.sum_div]
        exact div_self hT.ne'
      · intro e he
        obtain ⟨e', he', rfl⟩ := List.mem_map.1 he
        exact ⟨_, hM e' he'⟩
    · exact absurd rfl hne
    · have hmv := hv name m hm
      obtain ⟨n1, n2, n3⟩ := normalise_props m.composition hmne hmv.comp_pos
      rcases mixLoop_cases _ _ _ _ h with ⟨rfl, _⟩ | ⟨G, hG, rfl⟩
      · exact absurd rfl hne
      · have hSG : ∀ e ∈ normalise m.composition, S e.1 := by
          intro e he
          obtain ⟨e', he', rfl⟩ := List.mem_map.1 he
          exact hS.closed name m hs hm e' he'
        have ihG := fun e he => ih e.1 (G e.1) (hSG e he) (hG e he).1 (hG e he).2
        refine ⟨mixFold_pos G _ [] n1 (fun e he => (ihG e he).1) (by simp), ?_, ?_⟩
        · rw [mixFold_total _ _ _ SMap.sorted_nil]
          have : (normalise m.composition).map (fun e => SMap.total (G e.1) * e.2)
              = (normalise m.composition).map Prod.snd := by
            apply List.map_congr_left
            intro e he
            rw [(ihG e he).2.1, one_mul]
          rw [this, n2, SMap.total_nil, zero_add]
        · exact mixFold_keys (fun n => ∃ x, L.massOf n = some x) G _ [] (fun e he => (ihG e he).2.2) (by simp)

/-- The fractions are those of the specification. -/
theorem comp_sound (pf : String → Outcome (SMap String K)) (hpf : ParserOK pf) (L : Library K) (hinv : Inv L)
    (S : String → Prop) (hS : Proper pf L S) (fuel : Nat) :
    ∀ (name : String) (c : SMap String K), S name → comp pf L fuel name = .ok c →
      (c ≠ [] → Resolves pf L name (some (val c))) ∧ (c = [] → NeedsUnknown pf L name) := by
  induction fuel with
  | zero => intro name c _ h; simp [comp] at h
  | succ fuel ih =>
    intro name c hs h
    rcases comp_cases pf hpf L hinv fuel name c h with ⟨f, M, hf, hfne, hM, rfl⟩ | ⟨hn, hm, rfl⟩ | ⟨hn, m, hm, hmne, h⟩
    · have hp : ∀ e ∈ f, 0 < e.2 := hS.counts name f hs hf
      have hMp : ∀ e ∈ f, 0 < M e.1 := fun e he => hS.masses _ _ (hM e he)
      refine ⟨fun _ => ?_, fun h0 => absurd h0 (by simpa using hfne)⟩
      have hg : val (f.map (fun e => (e.1, e.2 * M e.1 / formulaMass M f)) : SMap String K)
          = fun x => val f x * M x / formulaMass M f := by
        funext x
        unfold val
        rw [SMap.find?_mapVal f (fun e => e.2 * M e.1 / formulaMass M f) x]
        cases f.find? x <;> simp
      rw [hg]
      exact Resolves.formula name f M hf hfne hM (formulaMass_pos M f hfne hp hMp).ne'
    · exact ⟨fun h => absurd rfl h, fun _ => NeedsUnknown.here name hn hm⟩
    · have hSG : ∀ e ∈ normalise m.composition, S e.1 := by
        intro e he
        obtain ⟨e', he', rfl⟩ := List.mem_map.1 he
        exact hS.closed name m hs hm e' he'
      have hmemn : ∀ e ∈ m.composition, (e.1, e.2 / SMap.total m.composition) ∈ normalise m.composition := by
        intro e he
        exact List.mem_map.2 ⟨e, he, rfl⟩
      rcases mixLoop_cases _ _ _ _ h with ⟨rfl, e, he, hemp⟩ | ⟨G, hG, rfl⟩
      · refine ⟨fun h => absurd rfl h, fun _ => ?_⟩
        have hu := (ih e.1 [] (hSG e he) hemp).2 rfl
        obtain ⟨e', he', rfl⟩ := List.mem_map.1 he
        exact NeedsUnknown.inside name m e'.1 e'.2 hn hm he' hu
      · refine ⟨fun _ => ?_, fun h0 => ?_⟩
        · let F : String → Option (String → K) := fun n => some (val (G n))
          have hres : ∀ e ∈ m.composition, Resolves pf L e.1 (F e.1) := by
            intro e he
            have := hG _ (hmemn e he)
            exact (ih e.1 (G e.1) (hSG _ (hmemn e he) :) this.1).1 this.2
          have := Resolves.material name m F hn hm hmne hres
          have heq : mixture m.composition F = some (val (mixFold G (normalise m.composition) [])) := by
            unfold mixture
            rw [if_pos (show ∀ e ∈ m.composition, (F e.1).isSome = true from fun _ _ => rfl)]
            congr 1
            funext x
            rw [mixFold_val G _ _ (fun e he => comp_sorted pf hpf L hinv fuel _ _ (hG e he).1)]
            unfold normalise
            rw [List.map_map]
            simp only [val, SMap.find?_nil, Option.getD_none, zero_add]
            rfl
          rw [heq] at this
          exact this
        · exfalso
          refine mixFold_ne_nil G _ [] (fun e he => (hG e he).2) (Or.inr ?_) h0
          simpa [normalise] using hmne

/-- More stack does not change a result. -/
theorem mixLoop_mono (f g : String → Outcome (SMap String K)) (hfg : ∀ n c, f n = .ok c → g n = .ok c)
    (items : List (String × K)) : ∀ (acc r : SMap String K), mixLoop f items acc = .ok r → mixLoop g items acc = .ok r := by
  induction items with
  | nil => intro acc r h; exact h
  | cons e items ih =>
    intro acc r h
    obtain ⟨n, w⟩ := e
    unfold mixLoop at h ⊢
    rw [bind_eq_ok] at h ⊢
    obtain ⟨c, hc, h⟩ := h
    refine ⟨c, hfg n c hc, ?_⟩
    split at h
    · rename_i h0; rw [if_pos h0]; exact h
    · rename_i h0; rw [if_neg h0]; exact ih _ _ h

theorem comp_mono (pf : String → Outcome (SMap String K)) (L : Library K) (fuel : Nat) :
    ∀ (name : String) (c : SMap String K), comp pf L fuel name = .ok c → comp pf L (fuel + 1) name = .ok c := by
  induction fuel with
  | zero => intro name c h; simp [comp] at h
  | succ fuel ih =>
    intro name c h
    unfold comp at h ⊢
    rw [bind_eq_ok] at h ⊢
    obtain ⟨r, hr, h⟩ := h
    refine ⟨r, hr, ?_⟩
    split at h
    · rename_i h0; rw [if_pos h0]; exact h
    · rename_i h0
      rw [if_neg h0]
      split at h
      · exact h
      · split at h
        · cases h
        · rename_i h1
          rw [if_neg h1]
          exact mixLoop_mono _ _ ih _ _ _ h

theorem comp_mono_le (pf : String → Outcome (SMap String K)) (L : Library K) {a b : Nat} (hab : a ≤ b) (name : String)
    (c : SMap String K) (h : comp pf L a name = .ok c) : comp pf L b name = .ok c := by
  induction hab with
  | refl => exact h
  | step _ ih => exact comp_mono pf L _ _ _ ih

/-- A bound for all the entries of a list. -/
theorem bound_list {α : Type} (P : α → Nat → Prop) (hmono : ∀ a n m, n ≤ m → P a n → P a m) (l : List α)
    (h : ∀ a ∈ l, ∃ n, P a n) : ∃ n, ∀ a ∈ l, P a n := by
  induction l with
  | nil => exact ⟨0, by simp⟩
  | cons a l ih =>
    obtain ⟨n, hn⟩ := ih (fun a ha => h a (List.mem_cons_of_mem _ ha))
    obtain ⟨k, hk⟩ := h a (by simp)
    refine ⟨max n k, fun b hb => ?_⟩
    rcases List.mem_cons.1 hb with rfl | hb
    · exact hmono _ _ _ (le_max_right _ _) hk
    · exact hmono _ _ _ (le_max_left _ _) (hn b hb)

/-- What a result `c` says, compared with the specification. -/
def Represents (c : SMap String K) (r : Option (String → K)) : Prop :=
  c.Sorted ∧ (r = none → c = []) ∧ ∀ g, r = some g → c ≠ [] ∧ val c = g

theorem comp_complete (pf : String → Outcome (SMap String K)) (hpf : ParserOK pf) (L : Library K) (hinv : Inv L)
    (name : String) (r : Option (String → K)) (h : Resolves pf L name r) :
    ∃ N c, comp pf L N name = .ok c ∧ Represents c r := by
  induction h with
  | formula name f M hf hne hM h0 =>
    refine ⟨1, f.map (fun e => (e.1, e.2 * M e.1 / formulaMass M f)), ?_, SMap.sorted_mapVal (hpf name f hf).1 _,
      fun h => (by cases h), ?_⟩
    · unfold comp
      rw [formula_eq pf hpf L hinv name f hf M hM, ok_bind, if_pos (by simpa [List.length_pos_iff] using hne)]
      rfl
    · intro g hg
      injection hg with hg
      refine ⟨by simpa using hne, ?_⟩
      rw [← hg]
      funext x
      unfold val
      rw [SMap.find?_mapVal f (fun e => e.2 * M e.1 / formulaMass M f) x]
      cases f.find? x <;> simp
  | unknown name hn hm =>
    refine ⟨1, [], ?_, SMap.sorted_nil, fun _ => rfl, fun g h => (by cases h)⟩
    unfold comp
    rw [formula_of_not pf hpf L hinv name hn, ok_bind, if_neg (by simp), (getMaterial_throw_iff L name).1 hm]
    rfl
  | material name m G hn hm hne h ih =>
    have hb : ∃ N, ∀ e ∈ m.composition, ∃ c, comp pf L N e.1 = .ok c ∧ Represents c (G e.1) :=
      bound_list (fun (e : String × K) N => ∃ c, comp pf L N e.1 = .ok c ∧ Represents c (G e.1))
        (fun a n k hnk ⟨c, hc, hr⟩ => ⟨c, comp_mono_le pf L hnk _ _ hc, hr⟩) _ ih
    obtain ⟨N, hN⟩ := hb
    let C : String → SMap String K := fun n => match comp pf L N n with | .ok c => c | _ => []
    have hC : ∀ e ∈ m.composition, comp pf L N e.1 = .ok (C e.1) ∧ Represents (C e.1) (G e.1) := by
      intro e he
      obtain ⟨c, hc, hr⟩ := hN e he
      have : C e.1 = c := by simp only [C, hc]
      rw [this]
      exact ⟨hc, hr⟩
    have hC' : ∀ e ∈ normalise m.composition, comp pf L N e.1 = .ok (C e.1) ∧ Represents (C e.1) (G e.1) := by
      intro e he
      obtain ⟨e', he', rfl⟩ := List.mem_map.1 he
      exact hC e' he'
    have hstep : comp pf L (N + 1) name = mixLoop (comp pf L N) (normalise m.composition) [] := by
      rw [comp, formula_of_not pf hpf L hinv name hn, ok_bind, if_neg (by simp), (getMaterial_ok_iff L name m).1 hm]
      dsimp only
      rw [if_neg]
      have := List.length_pos_iff.2 hne
      omega
    by_cases hall : ∀ e ∈ m.composition, (G e.1).isSome = true
    · have hne' : ∀ e ∈ normalise m.composition, C e.1 ≠ [] := by
        intro e he
        obtain ⟨e', he', rfl⟩ := List.mem_map.1 he
        obtain ⟨g, hg⟩ := Option.isSome_iff_exists.1 (hall e' he')
        exact ((hC e' he').2.2.2 g hg).1
      refine ⟨N + 1, _, hstep.trans (mixLoop_fold _ C _ _ (fun e he => (hC' e he).1) hne'),
        mixFold_sorted _ _ _ SMap.sorted_nil, ?_, ?_⟩
      · intro h0
        unfold mixture at h0
        rw [if_pos hall] at h0
        cases h0
      · intro g hg
        unfold mixture at hg
        rw [if_pos hall] at hg
        injection hg with hg
        refine ⟨mixFold_ne_nil _ _ _ hne' (Or.inr (by simpa [normalise] using hne)), ?_⟩
        rw [← hg]
        funext x
        rw [mixFold_val C _ _ (fun e he => (hC' e he).2.1)]
        unfold normalise
        rw [List.map_map]
        simp only [val, SMap.find?_nil, Option.getD_none, zero_add]
        congr 1
        apply List.map_congr_left
        intro e he
        obtain ⟨g', hg'⟩ := Option.isSome_iff_exists.1 (hall e he)
        have := ((hC e he).2.2.2 g' hg').2
        simp only [Function.comp_apply, hg', Option.getD_some]
        rw [← this]
        rfl
    · refine ⟨N + 1, [], hstep.trans (mixLoop_empty _ C _ _ (fun e he => (hC' e he).1) ?_), SMap.sorted_nil,
        fun _ => rfl, ?_⟩
      · push Not at hall
        obtain ⟨e, he, hg⟩ := hall
        have hg : G e.1 = none := by simpa using hg
        exact ⟨(e.1, e.2 / SMap.total m.composition), List.mem_map.2 ⟨e, he, rfl⟩, (hC e he).2.2.1 hg⟩
      · intro g hg
        unfold mixture at hg
        rw [if_neg hall] at hg
        cases hg

/-! ### C29: the theorems -/

/-- The material objects given by the user are ones the class `Material` can produce (C02). -/
def ObjectsValid (ops : List (Op K)) : Prop := ∀ m f, Op.addMaterialObject m f ∈ ops → m.Valid

theorem setComposition_valid (m : Material K) (hv : m.Valid) (ns : List String) (as : List K) :
    (m.setComposition ns as).2.Valid := Material.step_valid m (.setComposition ns as) hv

theorem described_valid (n : String) (d t : K) (c : String) (m : Material K) (h : described n d t c = some m) :
    m.Valid := by
  unfold described at h
  split at h
  · cases h
  · rename_i hh
    push Not at hh
    injection h with h
    subst h
    exact ⟨fun _ => hh.1, hh.2.1, hh.2.2, by simp, by simp⟩

theorem matsValid_step (pf : String → Outcome (SMap String K)) (fuel : Nat) (L : Library K) (hd : NamesDistinct L)
    (hv : MatsValid L) (op : Op K) (hop : ∀ m f, op = .addMaterialObject m f → m.Valid) :
    MatsValid (L.step pf fuel op).2 := by
  intro n m hm
  rw [getMaterial_ok_iff] at hm
  have hvl : ∀ n m, L.lookup n = some m → m.Valid := fun n m h => hv n m ((getMaterial_ok_iff L n m).2 h)
  by_cases ht : touches n op
  swap
  · rw [step_untouched pf fuel L hd n op ht] at hm
    exact hvl n m hm
  · cases op with
    | addMaterialObject m' f =>
      simp only [step] at hm
      rw [addMaterialObject_lookup] at hm
      split at hm
      · injection hm with hm
        subst hm
        exact hop m' f rfl
      · exact hvl n m hm
    | addMaterial n' d t c f =>
      have hn : n' = n := ht
      subst hn
      simp only [step] at hm
      obtain ⟨_, _, _, s4, s5, s6, s7, s8⟩ := addMaterial_spec pf L hd n' d t c f
      by_cases hcase : f = false ∨ L.lookup n' = none
      · cases hde : described n' d t c with
        | none => rw [(s5 hcase hde).2.1] at hm; cases hm
        | some m' =>
          have hmv := described_valid n' d t c m' hde
          by_cases hcc : ∃ cc, L.formula pf n' = .ok cc
          · obtain ⟨cc, hcc⟩ := hcc
            by_cases hne : cc = []
            · subst hne
              rw [(s7 m' hcase hde hcc).2] at hm
              injection hm with hm
              subst hm
              exact hmv
            · rw [(s6 m' hcase hde cc hcc hne).2] at hm
              injection hm with hm
              subst hm
              exact setComposition_valid m' hmv _ _
          · rw [(s8 m' hcase hde (fun cc h => hcc ⟨cc, h⟩)).2] at hm
            injection hm with hm
            subst hm
            exact hmv
      · rw [not_or] at hcase
        rw [s4 ⟨by simpa using hcase.1, Option.isSome_iff_ne_none.2 hcase.2⟩] at hm
        exact hvl n' m hm
    | removeMaterial n' =>
      have hn : n' = n := ht
      subst hn
      simp only [step] at hm
      rw [removeMaterial_lookup L hd, if_pos rfl] at hm
      cases hm
    | removeMaterials => simp [step, removeMaterials, lookup] at hm
    | setMaterialComposition n' ns as =>
      have hn : n' = n := ht
      subst hn
      simp only [step] at hm
      rw [setMaterialComposition_lookup, if_pos rfl] at hm
      obtain ⟨m', hm', rfl⟩ := Option.map_eq_some_iff.1 hm
      exact setComposition_valid m' (hvl n' m' hm') _ _
    | setMaterialCompositionMap n' cc =>
      have hn : n' = n := ht
      subst hn
      simp only [step] at hm
      rw [setMaterialCompositionMap_eq, setMaterialComposition_lookup, if_pos rfl] at hm
      obtain ⟨m', hm', rfl⟩ := Option.map_eq_some_iff.1 hm
      exact setComposition_valid m' (hvl n' m' hm') _ _
    | addElement e => exact absurd ht (by simp [touches])
    | onElement _ _ => exact absurd ht (by simp [touches])
    | setEscapeCacheEnabled _ => exact absurd ht (by simp [touches])
    | clearEscapeCache => exact absurd ht (by simp [touches])
    | updateEscapeCache _ _ => exact absurd ht (by simp [touches])

theorem matsValid_run (pf : String → Outcome (SMap String K)) (fuel : Nat) (on : Bool) (key : EscapeKey K)
    (ops : List (Op K)) (h : ObjectsValid ops) : MatsValid (run pf fuel (empty on key) ops) := by
  induction ops using List.reverseRecOn with
  | nil =>
    intro n m hm
    rw [getMaterial_ok_iff] at hm
    cases hm
  | append_singleton ops o ih =>
    rw [run_snoc]
    refine matsValid_step pf fuel _ (C25_names_unique pf fuel on key ops) (ih (fun m f hm => h m f (by simp [hm]))) o ?_
    intro m f hm
    exact h m f (by simp [hm])

/-- C29: after every history, whenever `getComposition(name)` returns a composition it is the one obtained by recursive
substitution (`Resolves`), its fractions are positive and sum to one and refer to known elements; when it returns nothing
some substance needed is unknown (`NeedsUnknown`). `S`: any set of names containing `name` and the components of its
materials, in which what is a formula has positive numbers of atoms; the masses of the elements are positive. -/
theorem C29_composition (pf : String → Outcome (SMap String K)) (hpf : ParserOK pf) (fuel : Nat) (on : Bool)
    (key : EscapeKey K) (ops : List (Op K)) (hobj : ObjectsValid ops) (S : String → Prop)
    (hS : Proper pf (run pf fuel (empty on key) ops) S) (d : Nat) (name : String) (hn : S name) (c : SMap String K)
    (h : (run pf fuel (empty on key) ops).comp pf d name = .ok c) :
    (c ≠ [] → Resolves pf (run pf fuel (empty on key) ops) name (some (val c))
        ∧ (∀ e ∈ c, 0 < e.2) ∧ (c.map Prod.snd).sum = 1 ∧ c.keys.Nodup
        ∧ ∀ e ∈ c, ∃ el, (run pf fuel (empty on key) ops).getElement e.1 = .ok el)
      ∧ (c = [] → NeedsUnknown pf (run pf fuel (empty on key) ops) name) := by
  have hinv := inv_run pf fuel on key ops
  have hv := matsValid_run pf fuel on key ops hobj
  generalize run pf fuel (empty on key) ops = L at *
  have hs := comp_sound pf hpf L hinv S hS d name c hn h
  refine ⟨fun hne => ?_, hs.2⟩
  obtain ⟨h1, h2, h3⟩ := comp_normalised pf hpf L hinv hv S hS d name c hn h hne
  refine ⟨hs.1 hne, h1, h2, SMap.keys_nodup (comp_sorted pf hpf L hinv d name c h), ?_⟩
  intro e he
  obtain ⟨x, hx⟩ := h3 e he
  unfold massOf at hx
  split at hx
  · rename_i el hel
    exact ⟨el, hel⟩
  · cases hx

/-- C29, the other direction: what the specification gives is what the call returns (with enough stack), and it is
empty when a component is unknown. -/
theorem C29_substitution (pf : String → Outcome (SMap String K)) (hpf : ParserOK pf) (fuel : Nat) (on : Bool)
    (key : EscapeKey K) (ops : List (Op K)) (name : String) (r : Option (String → K))
    (h : Resolves pf (run pf fuel (empty on key) ops) name r) :
    ∃ N, ∀ d, N ≤ d → ∃ c, (run pf fuel (empty on key) ops).comp pf d name = .ok c
      ∧ (r = none → c = []) ∧ ∀ g, r = some g → c ≠ [] ∧ ∀ x, val c x = g x := by
  obtain ⟨N, c, hc, _, h1, h2⟩ := comp_complete pf hpf _ (inv_run pf fuel on key ops) name r h
  refine ⟨N, fun d hd => ⟨c, comp_mono_le pf _ hd _ _ hc, h1, fun g hg => ⟨(h2 g hg).1, fun x => ?_⟩⟩⟩
  rw [(h2 g hg).2]

/-! ### C30: termination -/

/-- `n` is a component of the material `name`, which is not a formula. -/
def Component (pf : String → Outcome (SMap String K)) (L : Library K) (n name : String) : Prop :=
  NotFormula pf L name ∧ ∃ m w, L.getMaterial name = .ok m ∧ (n, w) ∈ m.composition

theorem mixLoop_not_diverge (f : String → Outcome (SMap String K)) (items : List (String × K))
    (h : ∀ e ∈ items, f e.1 ≠ .diverge) : ∀ acc, mixLoop f items acc ≠ .diverge := by
  induction items with
  | nil => intro acc hh; cases hh
  | cons e items ih =>
    intro acc
    obtain ⟨n, w⟩ := e
    unfold mixLoop
    have hn := h (n, w) (by simp)
    dsimp only at hn
    cases hf : f n with
    | ok c =>
      rw [ok_bind]
      split
      · intro hh; cases hh
      · exact ih (fun e he => h e (List.mem_cons_of_mem _ he)) _
    | throw e => simp
    | ub u => simp
    | diverge => exact absurd hf hn

theorem mixLoop_mono_nd (f g : String → Outcome (SMap String K)) (hfg : ∀ n, f n ≠ .diverge → g n = f n)
    (items : List (String × K)) : ∀ acc, mixLoop f items acc ≠ .diverge → mixLoop g items acc = mixLoop f items acc := by
  induction items with
  | nil => intro acc _; rfl
  | cons e items ih =>
    intro acc h
    obtain ⟨n, w⟩ := e
    unfold mixLoop at h ⊢
    have hnd : f n ≠ .diverge := by
      intro hh
      rw [hh] at h
      exact h rfl
    rw [hfg n hnd]
    cases hf : f n with
    | ok c =>
      rw [hf] at h
      rw [ok_bind] at h ⊢
      rw [ok_bind]
      split
      · rfl
      · rename_i h0
        rw [if_neg h0] at h
        exact ih _ h
    | throw e => rfl
    | ub u => rfl
    | diverge => rfl

theorem comp_mono_nd (pf : String → Outcome (SMap String K)) (L : Library K) (fuel : Nat) :
    ∀ (name : String), comp pf L fuel name ≠ .diverge → comp pf L (fuel + 1) name = comp pf L fuel name := by
  induction fuel with
  | zero => intro name h; exact absurd rfl h
  | succ fuel ih =>
    intro name h
    rw [comp]
    rw [comp] at h ⊢
    cases hf : L.formula pf name with
    | ok r =>
      rw [hf] at h
      rw [ok_bind] at h ⊢
      rw [ok_bind]
      split
      · rfl
      · rename_i h0
        rw [if_neg h0] at h
        cases hl : L.lookup name with
        | none => rfl
        | some m =>
          rw [hl] at h
          dsimp only at h ⊢
          split
          · rfl
          · rename_i h1
            rw [if_neg h1] at h
            exact mixLoop_mono_nd _ _ ih _ _ h
    | throw e => rfl
    | ub u => rfl
    | diverge => rfl

theorem comp_mono_nd_le (pf : String → Outcome (SMap String K)) (L : Library K) {a b : Nat} (hab : a ≤ b)
    (name : String) (h : comp pf L a name ≠ .diverge) : comp pf L b name = comp pf L a name := by
  induction hab with
  | refl => rfl
  | step _ ih => rw [← ih] at h ⊢; exact comp_mono_nd pf L _ _ h

/-- C30. Partial: `getComposition(name)` returns or throws, always with the same result, when no material reached from
the name contains itself (`Acc`: there is no infinite chain of components), and `parseFormula` returns for the names
involved (`S`: any set containing the name and the components of its materials). -/
theorem C30_terminates_partial (pf : String → Outcome (SMap String K)) (hpf : ParserOK pf)
    (fuel : Nat) (on : Bool) (key : EscapeKey K) (ops : List (Op K)) (name : String) (S : String → Prop)
    (hp : ∀ n, S n → ∃ f, pf n = .ok f)
    (hcl : ∀ n m, S n → (run pf fuel (empty on key) ops).getMaterial n = .ok m → ∀ e ∈ m.composition, S e.1) (hn : S name)
    (hacc : Acc (Component pf (run pf fuel (empty on key) ops)) name) :
    ∃ N o, o ≠ .diverge ∧ ∀ d, N ≤ d → (run pf fuel (empty on key) ops).comp pf d name = o := by
  have hinv := inv_run pf fuel on key ops
  generalize run pf fuel (empty on key) ops = L at *
  suffices h : ∃ N, comp pf L N name ≠ .diverge by
    obtain ⟨N, hN⟩ := h
    exact ⟨N, _, hN, fun d hd => comp_mono_nd_le pf L hd name hN⟩
  induction hacc with
  | intro name _ ih =>
    obtain ⟨f, hf⟩ := hp name hn
    have hok : ∃ r, L.formula pf name = .ok r := by
      unfold formula
      rw [hf, ok_bind]
      split <;> exact ⟨_, rfl⟩
    obtain ⟨r, hr⟩ := hok
    rcases formula_cases pf hpf L hinv name r hr with ⟨rfl, hnf⟩ | ⟨hne, _⟩
    · cases hl : L.lookup name with
      | none =>
        refine ⟨1, ?_⟩
        rw [comp, hr, ok_bind, if_neg (by simp), hl]
        simp
      | some m =>
        have hm := (getMaterial_ok_iff L name m).2 hl
        have hb : ∃ N, ∀ e ∈ m.composition, comp pf L N e.1 ≠ .diverge :=
          bound_list (fun (e : String × K) N => comp pf L N e.1 ≠ .diverge)
            (fun a n k hnk h => by rw [comp_mono_nd_le pf L hnk _ h]; exact h) _
            (fun e he => ih e.1 ⟨hnf, m, e.2, hm, he⟩ (hcl name m hn hm e he))
        obtain ⟨N, hN⟩ := hb
        refine ⟨N + 1, ?_⟩
        rw [comp, hr, ok_bind, if_neg (by simp), hl]
        dsimp only
        split
        · simp
        · apply mixLoop_not_diverge
          intro e he
          obtain ⟨e', he', rfl⟩ := List.mem_map.1 he
          exact hN e' he'
    · refine ⟨1, ?_⟩
      rw [comp, hr, ok_bind, if_pos (List.length_pos_iff.2 hne)]
      simp

/-- C30, a condition that can be checked: a number for each name, larger for a material than for its components. -/
theorem C30_ranked_partial (pf : String → Outcome (SMap String K)) (hpf : ParserOK pf)
    (fuel : Nat) (on : Bool) (key : EscapeKey K) (ops : List (Op K)) (rank : String → Nat) (S : String → Prop)
    (hp : ∀ n, S n → ∃ f, pf n = .ok f)
    (hcl : ∀ n m, S n → (run pf fuel (empty on key) ops).getMaterial n = .ok m → ∀ e ∈ m.composition, S e.1)
    (hr : ∀ n m, (run pf fuel (empty on key) ops).getMaterial n = .ok m → ∀ e ∈ m.composition, rank e.1 < rank n)
    (name : String) (hn : S name) :
    ∃ N o, o ≠ .diverge ∧ ∀ d, N ≤ d → (run pf fuel (empty on key) ops).comp pf d name = o := by
  refine C30_terminates_partial pf hpf fuel on key ops name S hp hcl hn ?_
  have hwf : WellFounded (fun a b : String => rank a < rank b) := (measure rank).wf
  refine Subrelation.accessible ?_ (hwf.apply name)
  rintro a b ⟨_, m, w, hm, hmem⟩
  exact hr b m hm _ hmem

/-- A material that contains itself. -/
theorem comp_cyclic (pf : String → Outcome (SMap String K)) (hpf : ParserOK pf) (L : Library K) (hinv : Inv L)
    (name : String) (m : Material K) (w : K) (hn : NotFormula pf L name) (hm : L.getMaterial name = .ok m)
    (hc : m.composition = [(name, w)]) (d : Nat) : comp pf L d name = .diverge := by
  induction d with
  | zero => rfl
  | succ d ih =>
    rw [comp, formula_of_not pf hpf L hinv name hn, ok_bind, if_neg (by simp), (getMaterial_ok_iff L name m).1 hm]
    dsimp only
    rw [hc, if_neg (by simp)]
    simp only [normalise, List.map_cons, List.map_nil]
    rw [mixLoop, ih]
    rfl

/-! ### C29: materials supplied with the call -/

/-- The mixture loop followed by the normalisation, for components that have normalised compositions. -/
theorem mix_normalised (f : String → Outcome (SMap String K)) (items : SMap String K) (c : SMap String K)
    (hw : ∀ e ∈ items, 0 < e.2)
    (hf : ∀ e ∈ items, ∀ g, f e.1 = .ok g → g ≠ [] → g.Sorted ∧ (∀ e ∈ g, 0 < e.2) ∧ SMap.total g = 1)
    (h : (do let c ← mixLoop f items []; return normalise c) = .ok c) (hne : c ≠ []) :
    c.Sorted ∧ (∀ e ∈ c, 0 < e.2) ∧ SMap.total c = 1
      ∧ ∃ G : String → SMap String K, (∀ e ∈ items, f e.1 = .ok (G e.1) ∧ G e.1 ≠ [])
        ∧ (∀ x, val c x = (items.map (fun e => e.2 * val (G e.1) x)).sum / SMap.total items)
        ∧ ∀ P : String → Prop, (∀ e ∈ items, ∀ e' ∈ G e.1, P e'.1) → ∀ e ∈ c, P e.1 := by
  rw [bind_eq_ok] at h
  obtain ⟨r, hr, h⟩ := h
  have h : (.ok (normalise r) : Outcome (SMap String K)) = .ok c := h
  injection h with hfin
  subst hfin
  have hrne : r ≠ [] := by
    intro h0
    rw [h0] at hne
    exact hne rfl
  rcases mixLoop_cases _ _ _ _ hr with ⟨rfl, _⟩ | ⟨G, hG, rfl⟩
  · exact absurd rfl hrne
  · have hg := fun e he => hf e he (G e.1) (hG e he).1 (hG e he).2
    have hpos := mixFold_pos G items [] hw (fun e he => (hg e he).2.1) (by simp)
    have htot : SMap.total (mixFold G items []) = SMap.total items := by
      rw [mixFold_total _ _ _ SMap.sorted_nil, SMap.total_nil, zero_add]
      unfold SMap.total
      congr 1
      apply List.map_congr_left
      intro e he
      have : SMap.total (G e.1) = 1 := (hg e he).2.2
      unfold SMap.total at this
      rw [this, one_mul]
    obtain ⟨n1, n2, _⟩ := normalise_props _ hrne hpos
    refine ⟨normalise_sorted _ (mixFold_sorted _ _ _ SMap.sorted_nil), n1, n2, G, hG, ?_, ?_⟩
    · intro x
      rw [normalise_val, htot, mixFold_val G _ _ (fun e he => (hg e he).1)]
      simp [val]
    · intro P hP e he
      obtain ⟨e', he', rfl⟩ := List.mem_map.1 he
      exact mixFold_keys P G items [] hP (by simp) e' he'

/-- `S` also contains the names of the elements and the components of the materials supplied. -/
structure ProperWith (pf : String → Outcome (SMap String K)) (L : Library K) (extra : List (Material K))
    (S : String → Prop) : Prop extends Proper pf L S where
  elements : ∀ n x, L.massOf n = some x → S n
  supplied : ∀ m ∈ extra, m.Valid ∧ ∀ e ∈ m.composition, S e.1

theorem compWith_normalised (pf : String → Outcome (SMap String K)) (hpf : ParserOK pf) (L : Library K) (hinv : Inv L)
    (hv : MatsValid L) (extra : List (Material K)) (S : String → Prop) (hS : ProperWith pf L extra S) (d : Nat) :
    ∀ (name : String) (c : SMap String K), S name → compWith pf L extra d name = .ok c → c ≠ [] →
      c.Sorted ∧ (∀ e ∈ c, 0 < e.2) ∧ SMap.total c = 1 ∧ ∀ e ∈ c, ∃ x, L.massOf e.1 = some x := by
  have hcomp := comp_normalised pf hpf L hinv hv S hS.toProper
  induction d with
  | zero => intro name c _ h; simp [compWith] at h
  | succ d ih =>
    intro name c hs h hne
    unfold compWith at h
    rw [bind_eq_ok] at h
    obtain ⟨r, hr, h⟩ := h
    split at h
    · rename_i hlen
      have h : (.ok r : Outcome (SMap String K)) = .ok c := h
      injection h with hfin
      subst hfin
      have hc : comp pf L 1 name = .ok r := by
        rw [comp, hr, ok_bind, if_pos hlen]
        rfl
      obtain ⟨h1, h2, h3⟩ := hcomp 1 name r hs hc hne
      exact ⟨comp_sorted pf hpf L hinv 1 name r hc, h1, h2, h3⟩
    · split at h
      · obtain ⟨h1, h2, h3⟩ := hcomp d name c hs h hne
        exact ⟨comp_sorted pf hpf L hinv d name c h, h1, h2, h3⟩
      · rw [bind_eq_ok] at h
        obtain ⟨t, ht, h⟩ := h
        split at h
        · cases h
        · rename_i hlen
          have htne : t ≠ [] := by
            intro h0
            rw [h0] at hlen
            simp at hlen
          have htp : (∀ e ∈ t, 0 < e.2) ∧ ∀ e ∈ t, S e.1 := by
            unfold ownComposition at ht
            split at ht
            · obtain ⟨h1, _, h3⟩ := hcomp d name t hs ht htne
              refine ⟨h1, fun e he => ?_⟩
              obtain ⟨x, hx⟩ := h3 e he
              exact hS.elements _ _ hx
            · rename_i m hm
              injection ht with hfin
              subst hfin
              have := hS.supplied m (List.mem_of_find?_eq_some hm)
              exact ⟨this.1.comp_pos, this.2⟩
          obtain ⟨h1, h2, h3, G, hG, _, h4⟩ := mix_normalised (compWith pf L extra d) t c htp.1 (fun e he g hg hgne => by
            obtain ⟨a1, a2, a3, _⟩ := ih e.1 g (htp.2 e he) hg hgne
            exact ⟨a1, a2, a3⟩) h hne
          refine ⟨h1, h2, h3, h4 (fun n => ∃ x, L.massOf n = some x) (fun e he e' he' => ?_)⟩
          exact (ih e.1 (G e.1) (htp.2 e he) (hG e he).1 (hG e he).2).2.2.2 e' he'

/-- C29, `getComposition(name, materials)`: what is returned are positive fractions of known elements that sum to one. -/
theorem C29_supplied_materials (pf : String → Outcome (SMap String K)) (hpf : ParserOK pf) (fuel : Nat) (on : Bool)
    (key : EscapeKey K) (ops : List (Op K)) (hobj : ObjectsValid ops) (extra : List (Material K)) (S : String → Prop)
    (hS : ProperWith pf (run pf fuel (empty on key) ops) extra S) (d : Nat) (name : String) (hn : S name)
    (c : SMap String K) (h : (run pf fuel (empty on key) ops).compWith pf extra d name = .ok c) (hne : c ≠ []) :
    (∀ e ∈ c, 0 < e.2) ∧ (c.map Prod.snd).sum = 1 ∧ c.keys.Nodup
      ∧ ∀ e ∈ c, ∃ x, (run pf fuel (empty on key) ops).massOf e.1 = some x := by
  obtain ⟨h1, h2, h3, h4⟩ := compWith_normalised pf hpf _ (inv_run pf fuel on key ops)
    (matsValid_run pf fuel on key ops hobj) extra S hS d name c hn h hne
  exact ⟨h2, h3, SMap.keys_nodup h1, h4⟩

/-- C29: a material supplied with the call takes precedence over the one of the library; its composition is the mean
of the compositions of its components, weighted with their amounts. -/
theorem C29_supplied_first (pf : String → Outcome (SMap String K)) (hpf : ParserOK pf) (fuel : Nat) (on : Bool)
    (key : EscapeKey K) (ops : List (Op K)) (hobj : ObjectsValid ops) (extra : List (Material K)) (S : String → Prop)
    (hS : ProperWith pf (run pf fuel (empty on key) ops) extra S) (d : Nat) (name : String)
    (hnf : NotFormula pf (run pf fuel (empty on key) ops) name) (m : Material K)
    (hm : extra.find? (fun m => m.name == name) = some m)
    (c : SMap String K) (h : (run pf fuel (empty on key) ops).compWith pf extra (d + 1) name = .ok c) (hne : c ≠ []) :
    ∃ G : String → SMap String K,
      (∀ e ∈ m.composition, (run pf fuel (empty on key) ops).compWith pf extra d e.1 = .ok (G e.1) ∧ G e.1 ≠ [])
      ∧ ∀ x, val c x = (m.composition.map (fun e => e.2 * val (G e.1) x)).sum / (m.composition.map Prod.snd).sum := by
  have hinv := inv_run pf fuel on key ops
  have hv := matsValid_run pf fuel on key ops hobj
  generalize run pf fuel (empty on key) ops = L at *
  have hex : ¬ extra.length = 0 := by
    intro h0
    rw [List.length_eq_zero_iff] at h0
    rw [h0] at hm
    cases hm
  unfold compWith ownComposition at h
  rw [formula_of_not pf hpf L hinv name hnf, ok_bind, if_neg (by simp), if_neg hex, hm] at h
  dsimp only at h
  rw [ok_bind] at h
  split at h
  · cases h
  · have hsup := hS.supplied m (List.mem_of_find?_eq_some hm)
    obtain ⟨_, _, _, G, hG, h1, _⟩ := mix_normalised (compWith pf L extra d) m.composition c hsup.1.comp_pos
      (fun e he g hg hgne => by
        obtain ⟨a1, a2, a3, _⟩ := compWith_normalised pf hpf L hinv hv extra S hS d e.1 g (hsup.2 e he) hg hgne
        exact ⟨a1, a2, a3⟩) h hne
    exact ⟨G, hG, h1⟩

/-- C29, `getComposition(amounts, materials)`: for positive amounts the result is the mean of the compositions of the
substances weighted with their amounts, positive and summing to one. -/
theorem C29_amounts (pf : String → Outcome (SMap String K)) (hpf : ParserOK pf) (fuel : Nat) (on : Bool)
    (key : EscapeKey K) (ops : List (Op K)) (hobj : ObjectsValid ops) (extra : List (Material K)) (S : String → Prop)
    (hS : ProperWith pf (run pf fuel (empty on key) ops) extra S) (d : Nat) (input : SMap String K)
    (hin : ∀ e ∈ input, S e.1 ∧ 0 < e.2) (c : SMap String K)
    (h : (run pf fuel (empty on key) ops).compMap pf extra d input = .ok c) (hne : c ≠ []) :
    (∀ e ∈ c, 0 < e.2) ∧ (c.map Prod.snd).sum = 1 ∧ c.keys.Nodup
      ∧ ∃ G : String → SMap String K,
        (∀ e ∈ input, (run pf fuel (empty on key) ops).compWith pf extra d e.1 = .ok (G e.1) ∧ G e.1 ≠ [])
        ∧ ∀ x, val c x = (input.map (fun e => e.2 * val (G e.1) x)).sum / (input.map Prod.snd).sum := by
  have hinv := inv_run pf fuel on key ops
  have hv := matsValid_run pf fuel on key ops hobj
  generalize run pf fuel (empty on key) ops = L at *
  obtain ⟨h0, h1, h2, G, hG, h3, _⟩ := mix_normalised (compWith pf L extra d) input c (fun e he => (hin e he).2)
    (fun e he g hg hgne => by
      obtain ⟨a1, a2, a3, _⟩ := compWith_normalised pf hpf L hinv hv extra S hS d e.1 g (hin e he).1 hg hgne
      exact ⟨a1, a2, a3⟩) h hne
  exact ⟨h1, h2, SMap.keys_nodup h0, G, hG, h3⟩

/-! ### Examples -/

section

attribute [local instance] Element.exampleTrans

local instance exampleTrig' : Trig ℚ := ⟨fun _ => 1⟩

/-- Materials inside materials. -/
def nestedOps : List (Op ℚ) :=
  exampleOps ++ [.addElement (exampleElement "Si" 28), .addMaterial "sand" 2 1 "" true,
    .setMaterialComposition "sand" ["SiO2"] [1], .addMaterial "mud" 1 1 "" true,
    .setMaterialComposition "mud" ["wet", "sand"] [3, 1],
    .addMaterial "unknown" 1 1 "" true, .setMaterialComposition "unknown" ["H2O", "xyz"] [1, 1],
    .addMaterial "loop" 1 1 "" true, .setMaterialComposition "loop" ["loop"] [1]]

def nested : Library ℚ := run examplePf 5 (empty false exampleKey) nestedOps

theorem nested_objects : ObjectsValid nestedOps := by
  intro m f h
  simp [nestedOps, exampleOps] at h

/-- The names of the example. -/
def nestedNames (n : String) : Prop := n ∈ ["H", "O", "Si", "H2O", "wet", "sand", "SiO2", "mud", "xyz", "unknown"]

theorem nested_material (n : String) (m : Material ℚ) (h : nested.getMaterial n = .ok m) : m ∈ nested.materials := by
  rw [getMaterial_ok_iff] at h
  exact List.mem_of_find?_eq_some h

theorem nested_proper : Proper examplePf nested nestedNames := by
  refine ⟨?_, ?_, ?_⟩
  · have h : ∀ n ∈ ["H", "O", "Si", "H2O", "wet", "sand", "SiO2", "mud", "xyz", "unknown"],
        (examplePf n).bind (fun f => .ok (decide (∀ e ∈ f, 0 < e.2))) = .ok true := by decide +kernel
    intro n f hn hf
    have := h n hn
    rw [hf] at this
    have : (.ok (decide (∀ e ∈ f, 0 < e.2)) : Outcome Bool) = .ok true := this
    injection this with this
    simpa using this
  · have h : ∀ e ∈ nested.elements, 0 < e.mass := by decide +kernel
    intro n x hx
    unfold massOf at hx
    split at hx
    · rename_i e he
      injection hx with hx
      subst hx
      unfold getElement at he
      split at he
      · split at he
        · unfold vget at he
          split at he
          · rename_i hh
            injection he with he
            subst he
            exact h _ (List.mem_of_getElem? hh)
          · cases he
        · cases he
      · cases he
    · cases hx
  · have h : ∀ m ∈ nested.materials, m.name ≠ "loop" → ∀ e ∈ m.composition,
        e.1 ∈ ["H", "O", "Si", "H2O", "wet", "sand", "SiO2", "mud", "xyz", "unknown"] := by decide +kernel
    intro n m hn hm e he
    refine h m (nested_material n m hm) ?_ e he
    rw [(C25_names_are_the_defined_ones nested n).2.2 m hm]
    intro hh
    rw [hh] at hn
    unfold nestedNames at hn
    simp at hn

/-- `C29_composition` applies: mud is half water and quartz sand. -/
example : nested.comp examplePf 5 "mud" = .ok [("H", 1 / 24), ("O", 101 / 120), ("Si", 7 / 60)]
    ∧ Resolves examplePf nested "mud" (some (val [("H", 1 / 24), ("O", 101 / 120), ("Si", 7 / 60)])) := by
  have h : nested.comp examplePf 5 "mud" = .ok [("H", 1 / 24), ("O", 101 / 120), ("Si", 7 / 60)] := by decide +kernel
  exact ⟨h, ((C29_composition examplePf (parserOK _ _) 5 false exampleKey nestedOps nested_objects nestedNames
    nested_proper 5 "mud" (by simp [nestedNames]) _ h).1 (by simp)).1⟩

/-- An unknown component. -/
example : nested.comp examplePf 5 "unknown" = .ok [] ∧ NeedsUnknown examplePf nested "unknown" := by
  have h : nested.comp examplePf 5 "unknown" = .ok [] := by decide +kernel
  exact ⟨h, (C29_composition examplePf (parserOK _ _) 5 false exampleKey nestedOps nested_objects nestedNames
    nested_proper 5 "unknown" (by simp [nestedNames]) _ h).2 rfl⟩

/-- C30 is violated: the API accepts a material that contains itself, and `getComposition` never returns for it. -/
theorem C30_cycle_violated :
    (nested.setMaterialComposition "loop" ["loop"] [1]).1 = .ok () ∧ ∀ d, nested.comp examplePf d "loop" = .diverge := by
  refine ⟨by decide +kernel, fun d => ?_⟩
  have h1 : nested.lookup "loop" = nested.materials[5]? := by
    rw [lookup_eq, named_eq]
    congr 1
    decide +kernel
  have h2 : (nested.materials[5]?).map (fun m => m.composition) = some [("loop", (1 : ℚ))] := by decide +kernel
  cases hm : nested.materials[5]? with
  | none => rw [hm] at h2; cases h2
  | some m =>
    rw [hm] at h2 h1
    refine comp_cyclic examplePf (parserOK _ _) nested (inv_run examplePf 5 false exampleKey nestedOps) "loop" m 1
      ⟨[], by decide +kernel, Or.inl rfl⟩ ((getMaterial_ok_iff _ _ _).2 h1) ?_ d
    simpa using h2

/-- The hypotheses of `C30_ranked_partial` are met by the library before the loop is made. -/
example : ∃ N o, o ≠ .diverge ∧ ∀ d, N ≤ d →
    (run examplePf 5 (empty false exampleKey) (nestedOps.dropLast.dropLast)).comp examplePf d "mud" = o := by
  refine C30_ranked_partial examplePf (parserOK _ _) 5 false exampleKey (nestedOps.dropLast.dropLast)
    (fun n => if n = "mud" then 3 else if n = "wet" ∨ n = "sand" ∨ n = "unknown" then 2
      else if n = "H2O" then 1 else 0) nestedNames ?_ ?_ ?_ "mud" (by simp [nestedNames])
  · have h : ∀ n ∈ ["H", "O", "Si", "H2O", "wet", "sand", "SiO2", "mud", "xyz", "unknown"],
        (examplePf n).bind (fun _ => .ok ()) = .ok () := by decide +kernel
    intro n hn
    have h1 := h n hn
    cases hp : examplePf n with
    | ok f => exact ⟨f, rfl⟩
    | throw e => rw [hp] at h1; cases h1
    | ub u => rw [hp] at h1; cases h1
    | diverge => rw [hp] at h1; cases h1
  · have h : ∀ m ∈ (run examplePf 5 (empty false exampleKey) (nestedOps.dropLast.dropLast)).materials,
        ∀ e ∈ m.composition, e.1 ∈ ["H", "O", "Si", "H2O", "wet", "sand", "SiO2", "mud", "xyz", "unknown"] := by
      decide +kernel
    intro n m _ hm e he
    rw [getMaterial_ok_iff] at hm
    exact h m (List.mem_of_find?_eq_some hm) e he
  · have h : ∀ m ∈ (run examplePf 5 (empty false exampleKey) (nestedOps.dropLast.dropLast)).materials,
        ∀ e ∈ m.composition,
          (fun n => if n = "mud" then 3 else if n = "wet" ∨ n = "sand" ∨ n = "unknown" then 2
            else if n = "H2O" then 1 else 0) e.1
          < (fun n => if n = "mud" then 3 else if n = "wet" ∨ n = "sand" ∨ n = "unknown" then 2
            else if n = "H2O" then 1 else 0) m.name := by
      decide +kernel
    intro n m hm e he
    have hn := (C25_names_are_the_defined_ones _ n).2.2 m hm
    rw [getMaterial_ok_iff] at hm
    rw [← hn]
    exact h m (List.mem_of_find?_eq_some hm) e he

/-- C89 is violated: a formula with a negative number of atoms, which the parser accepts, gives a negative fraction; one
without atoms (`H0`) divides zero by zero. -/
theorem C89_negative_violated :
    nested.formula examplePf "H-2O" = .ok [("H", -1 / 7), ("O", 8 / 7)]
      ∧ examplePf "H0" = .ok [("H", 0)] := by
  decide +kernel

/-- C90 is violated: when materials are supplied with the call, an unknown name does not give an empty composition: the
call throws. -/
theorem C90_supplied_unknown_violated :
    nested.comp examplePf 5 "xyz" = .ok []
      ∧ nested.compWith examplePf [{ (Material.new : Material ℚ) with name := "other" }] 5 "xyz" = .throw .invalidArgument := by
  decide +kernel

/-- The hypotheses of `C29_supplied_first` and `C29_amounts` are met. -/
def suppliedMud : Material ℚ := { (Material.new : Material ℚ) with name := "mud", composition := [("H2O", 1 / 4), ("wet", 3 / 4)] }

theorem nested_properWith : ProperWith examplePf nested [suppliedMud] nestedNames := by
  refine ⟨nested_proper, ?_, ?_⟩
  · have h : ∀ e ∈ nested.elements, e.name ∈ ["H", "O", "Si"] := by decide +kernel
    intro n x hx
    have hinv := inv_run examplePf 5 false exampleKey nestedOps
    have hn : n ≠ "" := by
      intro hn
      subst hn
      unfold massOf getElement isElementNameDefined at hx
      simp at hx
    rw [getElement_of nested hinv n hn] at hx
    cases hf : nested.dict.find? n with
    | none => rw [hf] at hx; cases hx
    | some i =>
      have := List.mem_of_getElem? ((hinv n i).1 hf)
      obtain ⟨e, he, hen⟩ := List.mem_map.1 this
      have := h e he
      rw [hen] at this
      unfold nestedNames
      simp only [List.mem_cons, List.not_mem_nil, or_false] at this ⊢
      tauto
  · intro m hm
    simp only [List.mem_singleton] at hm
    subst hm
    refine ⟨⟨by simp [suppliedMud, Material.new], by simp [suppliedMud, Material.new],
      by simp [suppliedMud, Material.new], ?_, ?_⟩, ?_⟩
    · decide +kernel
    · exact List.Pairwise.cons (by decide +kernel) (by simp)
    · intro e he
      simp only [suppliedMud, List.mem_cons, List.not_mem_nil, or_false] at he
      rcases he with rfl | rfl <;> simp [nestedNames]

example : nested.compWith examplePf [suppliedMud] 9 "mud" = .ok [("H", 5 / 72), ("O", 67 / 72)]
    ∧ nested.compMap examplePf [suppliedMud] 9 [("O", 1), ("mud", 2)] = .ok [("H", 5 / 108), ("O", 103 / 108)]
    ∧ ((5 : ℚ) / 72 + 67 / 72 = 1) := by
  have h : nested.compWith examplePf [suppliedMud] 9 "mud" = .ok [("H", 5 / 72), ("O", 67 / 72)] := by decide +kernel
  have h2 : nested.compMap examplePf [suppliedMud] 9 [("O", 1), ("mud", 2)] = .ok [("H", 5 / 108), ("O", 103 / 108)] := by
    decide +kernel
  refine ⟨h, h2, ?_⟩
  have := (C29_supplied_materials examplePf (parserOK _ _) 5 false exampleKey nestedOps nested_objects _ nestedNames
    nested_properWith 9 "mud" (by simp [nestedNames]) _ h (by simp)).2.1
  simpa using this

end

end Library
end Fisx
