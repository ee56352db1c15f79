import Verif.Init
import Verif.LoaderProps
import Verif.InstallProps
import Verif.EPDL97Load

/-!
# Properties of a newly constructed library
-/

set_option linter.unusedSectionVars false

namespace Fisx
namespace Init

open Loader (OnlyShells Performed callsFor columns subshellsOf)

variable {K : Type} [Field K] [LinearOrder K] [IsStrictOrderedRing K]

/-! ## The table of elements -/

theorem table_length : defaultElements.length = 109 := by decide +kernel

theorem table_dict : ∀ n : Fin 109, ∃ h : n.1 < defaultElements.length,
    (makeDict defaultElements 0 []).find? defaultElements[n.1].symbol = some n.1 ∧
    defaultElements[n.1].symbol.length ≠ 0 ∧ defaultElements[n.1].z = (n.1 : Int) + 1 := by decide +kernel

theorem table_at {n : Nat} {i : Info} (h : defaultElements[n]? = some i) :
    (makeDict defaultElements 0 []).find? i.symbol = some n ∧ i.symbol.length ≠ 0 ∧ i.z = (n : Int) + 1 := by
  obtain ⟨hn, rfl⟩ := List.getElem?_eq_some_iff.1 h
  obtain ⟨_, h1⟩ := table_dict ⟨n, by rw [← table_length]; exact hn⟩
  exact h1

theorem makeDict_mem : ∀ (l : List Info) (n : Nat) (d : SMap String Nat) (x : String),
    (makeDict l n d).find? x ≠ none → d.find? x ≠ none ∨ x ∈ l.map Info.symbol
  | [], _, _, _, h => Or.inl h
  | i :: rest, n, d, x, h => by
    rcases makeDict_mem rest (n + 1) _ x h with h' | h'
    · rw [SMap.find?_insert] at h'
      split_ifs at h' with hx
      · exact Or.inr (by simp [hx])
      · exact Or.inl h'
    · exact Or.inr (by simp at h' ⊢; exact Or.inr h')

/-! ## What a constructor does -/

theorem makeElements_ok (epdl : EPDL97 K) : ∀ (l : List Info) (els : List (LibElement K)), makeElements epdl l = .ok els →
    List.Forall₂ (fun i e => makeElement epdl i = .ok e) l els
  | [], els, h => by cases h; exact .nil
  | i :: rest, els, h => by
    unfold makeElements at h
    obtain ⟨e, h1, h⟩ := Outcome.bind_eq_ok.1 h
    obtain ⟨es, h2, h⟩ := Outcome.bind_eq_ok.1 h
    cases h
    exact .cons h1 (makeElements_ok epdl rest es h2)

theorem setUp_ok {on : Bool} {key : EscapeKey K} {strtod : Str → K} {fs : Files} {dir binding : String} {d : Database K}
    (h : setUp on key strtod fs dir binding = .ok d) :
    ∃ epdl els s, loadEpdl strtod fs dir = .ok epdl ∧ otherBinding strtod fs binding epdl = .ok d.epdl ∧
      List.Forall₂ (fun i e => makeElement d.epdl i = .ok e) defaultElements els ∧
      loadFiles strtod fs dir shellFiles { elements := els, files := noFiles } = .ok s ∧
      d.lib = { dict := makeDict defaultElements 0 [], elements := s.elements, materials := [], escapeOn := on,
                escape := [], escapeKey := key } ∧
      d.periodic = defaultElements.map describe ∧ d.files = s.files := by
  unfold setUp at h
  obtain ⟨epdl, h1, h⟩ := Outcome.bind_eq_ok.1 h
  obtain ⟨epdl', h2, h⟩ := Outcome.bind_eq_ok.1 h
  obtain ⟨els, h3, h⟩ := Outcome.bind_eq_ok.1 h
  obtain ⟨s, h4, h⟩ := Outcome.bind_eq_ok.1 h
  cases h
  exact ⟨epdl, els, s, h1, h2, makeElements_ok _ _ _ h3, h4, rfl, rfl, rfl⟩

theorem pathOf_ok {dir file p : String} (h : pathOf dir file = .ok p) : dir ≠ "" ∧ p = dir ++ "//" ++ file := by
  unfold pathOf at h
  split_ifs at h with h1 h2
  · exfalso
    have := congrArg List.length h2
    simp at this
    omega
  · cases h
    refine ⟨?_, rfl⟩
    rintro rfl
    simp at h1

theorem pathOf_nonempty {dir : String} (h : dir ≠ "") (file : String) : pathOf dir file = .ok (dir ++ "//" ++ file) := by
  unfold pathOf
  have h0 : 0 < dir.toList.length := by
    rw [List.length_pos_iff]
    intro h'
    exact h (String.toList_inj.1 (by simpa using h'))
  rw [if_neg (by omega), if_neg]
  intro h2
  have := congrArg List.length h2
  simp at this
  omega

/-- The shells of one of the main shells. -/
theorem subshells_keys {main : String} {subs : List Str} (h : subshellsOf main = some subs) : ∀ k ∈ subs, k ∈ Element.keys := by
  unfold subshellsOf at h
  split_ifs at h <;> (simp only [Option.some.injEq] at h; subst h; decide)

theorem only_mono {a b : List Str} (hab : ∀ k ∈ a, k ∈ b) {x y : LibElement K} (h : OnlyShells a x y) : OnlyShells b x y :=
  ⟨h.1, h.2, h.3, h.4, h.5, h.6, h.7, fun k hk => h.8 k (fun hka => hk (hab k hka))⟩

/-- One file after the other. -/
theorem loadFiles_cons {strtod : Str → K} {fs : Files} {dir : String} {kind : Loader.Kind} {main file : String}
    {rest : List (Loader.Kind × String × String)} {s s' : Loader.State K}
    (h : loadFiles strtod fs dir ((kind, main, file) :: rest) s = .ok s') :
    ∃ s1, dir ≠ "" ∧ Loader.load kind strtod s main (dir ++ "//" ++ file) (fs (dir ++ "//" ++ file)) = (.ok (), s1) ∧
      loadFiles strtod fs dir rest s1 = .ok s' := by
  unfold loadFiles at h
  obtain ⟨p, h1, h⟩ := Outcome.bind_eq_ok.1 h
  obtain ⟨u, h2, h⟩ := Outcome.bind_eq_ok.1 h
  obtain ⟨hd, rfl⟩ := pathOf_ok h1
  exact ⟨_, hd, Prod.ext h2 rfl, h⟩

theorem load_only {kind : Loader.Kind} {strtod : Str → K} {s s1 : Loader.State K} {main fileName : String} {text : Option Str}
    (h : Loader.load kind strtod s main fileName text = (.ok (), s1)) :
    List.Forall₂ (OnlyShells Element.keys) s.elements s1.elements := by
  obtain ⟨subs, scans, hs, _⟩ := Loader.loadCalls kind strtod s s1 main fileName text h
  have := (Loader.loadFailed kind strtod s main fileName text).1 subs hs
  rw [h] at this
  exact this.imp fun _ _ => only_mono (subshells_keys hs)

theorem loadFiles_only (strtod : Str → K) (fs : Files) (dir : String) : ∀ (l : List (Loader.Kind × String × String))
    (s s' : Loader.State K), loadFiles strtod fs dir l s = .ok s' →
    List.Forall₂ (OnlyShells Element.keys) s.elements s'.elements
  | [], s, s', h => by cases h; exact List.forall₂_same.2 fun a _ => .refl _ a
  | (kind, main, file) :: rest, s, s', h => by
    obtain ⟨s1, _, h1, h2⟩ := loadFiles_cons h
    exact Loader.forall2_trans (fun _ _ _ a b => a.trans b) (load_only h1) (loadFiles_only strtod fs dir rest s1 s' h2)

theorem forall₂_get {α β : Type} {R : α → β → Prop} {l : List α} {m : List β} (h : List.Forall₂ R l m) {n : Nat} {a : α}
    (ha : l[n]? = some a) : ∃ b, m[n]? = some b ∧ R a b := by
  induction h generalizing n with
  | nil => simp at ha
  | cons h1 _ ih =>
    cases n with
    | zero => simp at ha; subst ha; exact ⟨_, by simp, h1⟩
    | succ n => simpa using ih (by simpa using ha)

/-- The element made for an entry of the table, and what the files of shell data leave unchanged. -/
theorem setUp_element {on : Bool} {key : EscapeKey K} {strtod : Str → K} {fs : Files} {dir binding : String} {d : Database K}
    (h : setUp on key strtod fs dir binding = .ok d) {n : Nat} {i : Info} (hi : defaultElements[n]? = some i) :
    ∃ a e, makeElement d.epdl i = .ok a ∧ OnlyShells Element.keys a e ∧ d.lib.elements[n]? = some e ∧
      d.lib.getElement i.symbol = .ok e := by
  obtain ⟨epdl, els, s, _, _, h3, h4, h5, _, _⟩ := setUp_ok h
  obtain ⟨a, ha, hma⟩ := forall₂_get h3 hi
  obtain ⟨e, he, hae⟩ := forall₂_get (loadFiles_only _ _ _ _ _ _ h4) ha
  obtain ⟨t1, t2, t3⟩ := table_at hi
  refine ⟨a, e, hma, hae, by rw [h5]; exact he, ?_⟩
  unfold Library.getElement Library.isElementNameDefined
  rw [h5]
  simp only
  have hm : SMap.mem (makeDict defaultElements 0 []) i.symbol = true := by
    unfold SMap.mem
    rw [t1]; rfl
  rw [if_neg t2, if_pos hm, t1]
  simp only [vget, he]

theorem makeElement_ok {epdl : EPDL97 K} {i : Info} {a : LibElement K} (h : makeElement epdl i = .ok a) :
    ∃ e b e1 t, Element.mk? i.z = .ok e ∧ epdl.getBindingEnergies i.z = .ok b ∧ e.setBindingEnergies b = (.ok (), e1) ∧
      epdl.getTable i.z = .ok t ∧ e1.setAll t = (.ok (), a.data) ∧ a.name = i.symbol ∧ a.mass = (i.mass : K) := by
  unfold makeElement at h
  obtain ⟨e, h1, h⟩ := Outcome.bind_eq_ok.1 h
  obtain ⟨b, h2, h⟩ := Outcome.bind_eq_ok.1 h
  obtain ⟨u, h3, h⟩ := Outcome.bind_eq_ok.1 h
  obtain ⟨t, h4, h⟩ := Outcome.bind_eq_ok.1 h
  obtain ⟨u', h5, h⟩ := Outcome.bind_eq_ok.1 h
  cases h
  exact ⟨e, b, _, t, h1, h2, Prod.ext h3 rfl, h4, Prod.ext h5 rfl, rfl, rfl⟩

/-! ## C119 -/

/-- **C119** After the construction of a library (with any directory and any file of binding energies) the elements are
those of the table of predefined elements, in its order; the element of the `n`-th entry has atomic number `n`, and the
name, the position in the periodic table, the mass and the density (in g/cm3, 1 when the table has none) of that entry.
Other names are refused. There are no materials. -/
theorem C119_predefined (on : Bool) (key : EscapeKey K) (strtod : Str → K) (fs : Files) (dir binding : String) (d : Database K)
    (h : setUp on key strtod fs dir binding = .ok d) :
    d.lib.getElementNames = defaultElements.map Info.symbol ∧ d.lib.getMaterialNames = [] ∧
    (∀ (n : Nat) (i : Info), defaultElements[n]? = some i →
      getAtomicNumber d i.symbol = .ok ((n : Int) + 1) ∧ getAtomicMass d i.symbol = .ok ((i.mass : ℚ) : K) ∧
      getLongName d i.symbol = .ok i.longName ∧ getRow d i.symbol = .ok i.row ∧ getColumn d i.symbol = .ok i.column ∧
      getDensity d i.symbol = .ok (if i.density = 0 then 1 else ((i.density : ℚ) : K) / 1000)) ∧
    ∀ x, x ∉ defaultElements.map Info.symbol → d.lib.getElement x = .throw .invalidArgument := by
  obtain ⟨epdl, els, s, _, _, h3, h4, h5, h6, _⟩ := setUp_ok h
  have hname : ∀ (l : List Info) (es es' : List (LibElement K)), List.Forall₂ (fun i e => makeElement d.epdl i = .ok e) l es →
      List.Forall₂ (OnlyShells Element.keys) es es' → es'.map LibElement.name = l.map Info.symbol := by
    intro l es es' h1
    induction h1 generalizing es' with
    | nil => intro h2; cases h2; rfl
    | cons a _ ih =>
      intro h2
      cases h2 with
      | cons b c =>
        obtain ⟨_, _, _, _, _, _, _, _, _, e1, _⟩ := makeElement_ok a
        simp only [List.map_cons, ih _ c, b.name, e1]
  refine ⟨?_, by rw [h5]; rfl, ?_, ?_⟩
  · unfold Library.getElementNames
    rw [h5]
    exact hname _ _ _ h3 (loadFiles_only _ _ _ _ _ _ h4)
  · intro n i hi
    obtain ⟨a, e, hma, hae, hel, hget⟩ := setUp_element h hi
    obtain ⟨t1, t2, t3⟩ := table_at hi
    obtain ⟨e0, b, e1, t, m1, m2, m3, m4, m5, m6, m7⟩ := makeElement_ok hma
    have hz : a.data.atomicNumber = i.z := by
      have e5 := (Element.setAll_ok (congrArg Prod.fst m5)).2.2.2.2.2.1
      rw [congrArg Prod.snd m5] at e5
      rw [e5]
      have : e1 = (e0.setBindingEnergies b).2 := (congrArg Prod.snd m3).symm
      rw [this]
      have : e0.atomicNumber = i.z := by
        unfold Element.mk? at m1
        split_ifs at m1
        cases m1
        rfl
      exact this
    have hper : periodicOf d i.symbol = .ok (describe i) := by
      unfold periodicOf Library.isElementNameDefined
      rw [h5]
      simp only
      have hm : SMap.mem (makeDict defaultElements 0 []) i.symbol = true := by
        unfold SMap.mem
        rw [t1]; rfl
      rw [if_neg t2, if_pos hm, t1, h6]
      simp only [vget, List.getElem?_map, hi, Option.map_some]
    have hdens : ∀ i ∈ defaultElements, (i.density > 1 / 10000000000 ↔ i.density ≠ 0) := by decide +kernel
    refine ⟨?_, ?_, ?_, ?_, ?_, ?_⟩
    · unfold getAtomicNumber
      rw [hget, Outcome.ok_bind, ← t3, ← hz, ← hae.number]; rfl
    · unfold getAtomicMass
      rw [hget, Outcome.ok_bind, ← m7, ← hae.mass]; rfl
    · unfold getLongName; rw [hper]; rfl
    · unfold getRow; rw [hper]; rfl
    · unfold getColumn; rw [hper]; rfl
    · unfold getDensity
      rw [hper, Outcome.ok_bind]
      unfold describe
      simp only [hdens i (List.mem_of_getElem? hi), Outcome.pure_eq]
      by_cases h0 : i.density = 0 <;> simp [h0]
  · intro x hx
    unfold Library.getElement
    rw [if_neg]
    unfold Library.isElementNameDefined
    rw [h5]
    simp only
    split_ifs
    · simp
    · intro hm
      unfold SMap.mem at hm
      rcases makeDict_mem defaultElements 0 [] x (by intro h0; rw [h0] at hm; simp at hm) with h' | h'
      · exact h' rfl
      · exact hx h'

/-! ## The binding energies of an element -/

end Init

namespace Element

variable {K : Type} [Field K] [LinearOrder K] [IsStrictOrderedRing K]

/-- A shell of one of the series K, L and M, by its name. -/
def InnerName (k : Str) : Prop := k.head? = some 'K' ∨ k.head? = some 'L' ∨ k.head? = some 'M'

theorem take_one_iff (k : Str) (c : Char) : k.take 1 = [c] ↔ k.head? = some c := by
  cases k <;> simp

theorem bindingLoop_ok : ∀ (input : List (Str × K)) (b b' : SMap Str K) (sh sh' : SMap Str (Shell K)),
    (input.map Prod.fst).Nodup → bindingLoop input b sh = (.ok (), b', sh') →
    (∀ k v, b'.find? k = some v ↔ (k, v) ∈ input ∨ (k ∉ input.map Prod.fst ∧ b.find? k = some v)) ∧
    (∀ k s, sh'.find? k = some s ↔ sh.find? k = some s ∨
      (sh.find? k = none ∧ k ∈ input.map Prod.fst ∧ InnerName k ∧ Shell.mk? k = .ok s))
  | [], b, b', sh, sh', _, h => by
    unfold bindingLoop at h
    cases h
    simp
  | (k0, v0) :: rest, b, b', sh, sh', hn, h => by
    rw [List.map_cons, List.nodup_cons] at hn
    have hfirst : ∀ k v, ((k, v) ∈ rest ∨ (k ∉ rest.map Prod.fst ∧ (b.insert k0 v0).find? k = some v)) ↔
        ((k, v) ∈ (k0, v0) :: rest ∨ (k ∉ ((k0, v0) :: rest).map Prod.fst ∧ b.find? k = some v)) := by
      intro k v
      rw [SMap.find?_insert]
      simp only [List.mem_cons, List.map_cons, not_or, Prod.mk.injEq]
      by_cases hk : k0 = k
      · subst hk
        constructor
        · rintro (h | ⟨_, h⟩)
          · exact Or.inl (Or.inr h)
          · simp at h; exact Or.inl (Or.inl ⟨rfl, h.symm⟩)
        · rintro ((⟨_, h⟩ | h) | ⟨⟨h, _⟩, _⟩)
          · exact Or.inr ⟨hn.1, by simp [h]⟩
          · exact Or.inl h
          · exact absurd rfl h
      · rw [if_neg hk]
        have hk' : ¬ k = k0 := fun h => hk h.symm
        simp [hk']
    unfold bindingLoop at h
    dsimp only at h
    simp only [take_one_iff] at h
    split_ifs at h with hin hm
    · obtain ⟨a1, a2⟩ := bindingLoop_ok rest _ _ _ _ hn.2 h
      refine ⟨fun k v => (a1 k v).trans (hfirst k v), fun k s => ?_⟩
      rw [a2]
      unfold SMap.mem at hm
      constructor
      · rintro (h | ⟨h1, h2, h3⟩)
        · exact Or.inl h
        · exact Or.inr ⟨h1, List.mem_cons_of_mem _ h2, h3⟩
      · rintro (h | ⟨h1, h2, h3⟩)
        · exact Or.inl h
        · rcases List.mem_cons.1 h2 with rfl | h2
          · rw [h1] at hm; simp at hm
          · exact Or.inr ⟨h1, h2, h3⟩
    · have hnone : sh.find? k0 = none := by
        unfold SMap.mem at hm
        cases hf : sh.find? k0 with
        | none => rfl
        | some x => rw [hf] at hm; simp at hm
      cases hmk : (Shell.mk? k0 : Outcome (Shell K)) with
      | ok s0 =>
        rw [hmk] at h
        dsimp only at h
        obtain ⟨a1, a2⟩ := bindingLoop_ok rest _ _ _ _ hn.2 h
        refine ⟨fun k v => (a1 k v).trans (hfirst k v), fun k s => ?_⟩
        rw [a2, SMap.find?_insert]
        by_cases hk : k0 = k
        · subst hk
          rw [if_pos rfl]
          constructor
          · rintro (h | ⟨h1, _⟩)
            · simp only [Option.some.injEq] at h
              subst h
              exact Or.inr ⟨hnone, by simp, hin, hmk⟩
            · simp at h1
          · rintro (h | ⟨_, _, _, h⟩)
            · rw [hnone] at h; simp at h
            · rw [hmk] at h
              exact Or.inl (by simpa using h)
        · rw [if_neg hk]
          have hk' : ¬ k = k0 := fun h => hk h.symm
          simp [hk']
      | throw x => rw [hmk] at h; cases h
      | ub x => rw [hmk] at h; cases h
      | diverge => rw [hmk] at h; cases h
    · obtain ⟨a1, a2⟩ := bindingLoop_ok rest _ _ _ _ hn.2 h
      refine ⟨fun k v => (a1 k v).trans (hfirst k v), fun k s => ?_⟩
      rw [a2]
      constructor
      · rintro (h | ⟨h1, h2, h3⟩)
        · exact Or.inl h
        · exact Or.inr ⟨h1, List.mem_cons_of_mem _ h2, h3⟩
      · rintro (h | ⟨h1, h2, h3, h4⟩)
        · exact Or.inl h
        · rcases List.mem_cons.1 h2 with rfl | h2
          · exact absurd h3 hin
          · exact Or.inr ⟨h1, h2, h3, h4⟩

theorem bindingLoop_throws : ∀ (input : List (Str × K)) (b : SMap Str K) (sh : SMap Str (Shell K)),
    (∀ k ∈ input.map Prod.fst, InnerName k → ∃ s, (Shell.mk? k : Outcome (Shell K)) = .ok s) →
    (bindingLoop input b sh).1 = .ok ()
  | [], b, sh, _ => rfl
  | (k0, v0) :: rest, b, sh, h => by
    have ih := fun b sh => bindingLoop_throws rest b sh (fun k hk => h k (List.mem_cons_of_mem _ hk))
    unfold bindingLoop
    dsimp only
    simp only [take_one_iff]
    split_ifs with hin hm
    · exact ih _ _
    · obtain ⟨s, hs⟩ := h k0 (by simp) hin
      rw [hs]
      exact ih _ _
    · exact ih _ _

theorem bindingLoop_keys : ∀ (input : List (Str × K)) (b : SMap Str K) (sh : SMap Str (Shell K)), b.Sorted →
    (bindingLoop input b sh).2.1.Sorted
  | [], b, sh, h => h
  | (k0, v0) :: rest, b, sh, h => by
    have h' := SMap.insert_sorted h k0 v0
    unfold bindingLoop
    dsimp only
    split_ifs
    · exact bindingLoop_keys rest _ _ h'
    · split
      · exact bindingLoop_keys rest _ _ h'
      all_goals exact h'
    · exact bindingLoop_keys rest _ _ h'

theorem bindingLoop_made : ∀ (input : List (Str × K)) (b : SMap Str K) (sh : SMap Str (Shell K)),
    (bindingLoop input b sh).1 = .ok () → ∀ k ∈ input.map Prod.fst, InnerName k → sh.find? k = none →
      ∃ s, (Shell.mk? k : Outcome (Shell K)) = .ok s
  | [], _, _, _, k, hk, _, _ => by simp at hk
  | (k0, v0) :: rest, b, sh, h, k, hk, hin, hno => by
    unfold bindingLoop at h
    dsimp only at h
    simp only [take_one_iff] at h
    by_cases hkk : k0 = k
    · subst hkk
      have hm : ¬ sh.mem k0 = true := by unfold SMap.mem; rw [hno]; simp
      rw [if_pos (show k0.head? = some 'K' ∨ k0.head? = some 'L' ∨ k0.head? = some 'M' from hin), if_neg hm] at h
      cases hmk : (Shell.mk? k0 : Outcome (Shell K)) with
      | ok s => exact ⟨s, rfl⟩
      | throw x => rw [hmk] at h; cases h
      | ub x => rw [hmk] at h; cases h
      | diverge => rw [hmk] at h; cases h
    · have hk' : k ∈ rest.map Prod.fst := by
        rcases List.mem_cons.1 hk with rfl | h'
        · exact absurd rfl hkk
        · exact h'
      split_ifs at h with h1 h2
      · exact bindingLoop_made rest _ _ h k hk' hin hno
      · cases hmk : (Shell.mk? k0 : Outcome (Shell K)) with
        | ok s =>
          rw [hmk] at h
          exact bindingLoop_made rest _ _ h k hk' hin (by rw [SMap.find?_insert, if_neg hkk]; exact hno)
        | throw x => rw [hmk] at h; cases h
        | ub x => rw [hmk] at h; cases h
        | diverge => rw [hmk] at h; cases h
      · exact bindingLoop_made rest _ _ h k hk' hin hno

/-- **C120** Setting the binding energies of an element: they replace the former ones, and the element has exactly the
shells of the series K, L and M among them, all of them new. Nothing else changes. -/
theorem C120_read_back (e : Element K) (input : SMap Str K) (hs : input.Sorted)
    (h : (e.setBindingEnergies input).1 = .ok ()) :
    (e.setBindingEnergies input).2.binding = input ∧
    (∀ k s, (e.setBindingEnergies input).2.shells.find? k = some s ↔
      input.find? k ≠ none ∧ InnerName k ∧ Shell.mk? k = .ok s) ∧
    (e.setBindingEnergies input).2 = { e with binding := (e.setBindingEnergies input).2.binding,
                                              shells := (e.setBindingEnergies input).2.shells } := by
  unfold setBindingEnergies at h ⊢
  dsimp only at h ⊢
  obtain ⟨a1, a2⟩ := bindingLoop_ok input [] (bindingLoop input [] []).2.1 [] (bindingLoop input [] []).2.2
    (SMap.keys_nodup hs) (Prod.ext h rfl)
  refine ⟨?_, ?_, rfl⟩
  · refine SMap.ext_find? (bindingLoop_keys _ _ _ SMap.sorted_nil) hs fun k => ?_
    apply Option.ext
    intro v
    rw [a1, SMap.find?_iff_mem hs]
    simp
  · intro k s
    rw [a2]
    simp only [SMap.find?_nil, reduceCtorEq, true_and, false_or]
    have : k ∈ input.map Prod.fst ↔ input.find? k ≠ none := by
      rw [Ne, SMap.find?_eq_none_iff]
      simp
    rw [this]

/-- **C120** The call returns exactly when every name of the series K, L and M is the name of a shell. -/
theorem C120_accepted (e : Element K) (input : SMap Str K) :
    (e.setBindingEnergies input).1 = .ok () ↔
      ∀ k, input.find? k ≠ none → InnerName k → ∃ s, (Shell.mk? k : Outcome (Shell K)) = .ok s := by
  have hmem : ∀ k, k ∈ input.map Prod.fst ↔ input.find? k ≠ none := by
    intro k
    rw [Ne, SMap.find?_eq_none_iff]
    simp
  constructor
  · intro h k hk hin
    unfold setBindingEnergies at h
    dsimp only at h
    exact bindingLoop_made input [] [] h k ((hmem k).2 hk) hin rfl
  · intro h
    exact bindingLoop_throws input [] [] (fun k hk => h k ((hmem k).1 hk))

end Element

namespace Init

variable {K : Type} [Field K] [LinearOrder K] [IsStrictOrderedRing K]

open Element (at0)

/-! ## C121: the binding energies of the library -/

/-- The scan of position `i` of a file. -/
def FileScan (strtod : Str → K) (text : Option Str) (i : Nat) (scan : Scan K) : Prop :=
  Specfile.getScanLabels (Specfile.setFileName (Specfile.File.ofText text)) (i : Int) = .ok scan.labels ∧
  Specfile.getScanData strtod (Specfile.setFileName (Specfile.File.ofText text)) (i : Int) = .ok scan.rows

/-- `v` is the energy of the shell `s` in a row of a file of binding energies: it is in the last column, not the first one,
whose label names the shell. -/
def EnergyIn (labels : List Str) (row : List K) (s : Str) (v : K) : Prop :=
  ∃ (k : Nat) (label : Str), 1 ≤ k ∧ labels[k]? = some label ∧ EPDL97.NamesShell label s ∧ row[k]? = some v ∧
    ∀ (k' : Nat) (label' : Str), k < k' → labels[k']? = some label' → ¬ EPDL97.NamesShell label' s

/-- No column but the first one is that of the shell `s`. -/
def Unnamed (labels : List Str) (s : Str) : Prop :=
  ∀ (k : Nat) (label : Str), 1 ≤ k → labels[k]? = some label → ¬ EPDL97.NamesShell label s

theorem scanOf_ok {strtod : Str → K} {text : Option Str} {i : Nat} {scan : Scan K}
    (h : scanOf strtod (Specfile.setFileName (Specfile.File.ofText text)) i = .ok scan) : FileScan strtod text i scan := by
  unfold scanOf at h
  obtain ⟨l, h1, h⟩ := Outcome.bind_eq_ok.1 h
  obtain ⟨r, h2, h⟩ := Outcome.bind_eq_ok.1 h
  cases h
  exact ⟨h1, h2⟩

theorem scansOf_ok {strtod : Str → K} {text : Option Str} : ∀ {count i : Nat} {scans : List (Scan K)},
    scansOf strtod (Specfile.setFileName (Specfile.File.ofText text)) count i = .ok scans →
    scans.length = count ∧ ∀ (j : Nat) (scan : Scan K), scans[j]? = some scan → FileScan strtod text (i + j) scan
  | 0, i, scans, h => by cases h; simp
  | count + 1, i, scans, h => by
    unfold scansOf at h
    obtain ⟨s, h1, h⟩ := Outcome.bind_eq_ok.1 h
    obtain ⟨rest, h2, h⟩ := Outcome.bind_eq_ok.1 h
    cases h
    obtain ⟨a1, a2⟩ := scansOf_ok h2
    refine ⟨by simp [a1], fun j scan hj => ?_⟩
    cases j with
    | zero => simp at hj; subst hj; exact scanOf_ok h1
    | succ j =>
      have := a2 j scan (by simpa using hj)
      rwa [show i + 1 + j = i + (j + 1) by omega] at this

theorem bindingScans_ok {strtod : Str → K} {text : Option Str} {scan : Scan K}
    (h : bindingScans strtod text = .ok (some [scan])) :
    Specfile.getNumberOfScans (Specfile.setFileName (Specfile.File.ofText text)) = 1 ∧ FileScan strtod text 0 scan := by
  unfold bindingScans at h
  dsimp only at h
  split_ifs at h with hn
  · cases h
  · obtain ⟨l, h1, h⟩ := Outcome.bind_eq_ok.1 h
    cases h
    exact ⟨not_not.1 hn, by simpa using (scansOf_ok h1).2 0 scan (by simp)⟩

theorem loadEpdl_ok {strtod : Str → K} {fs : Files} {dir : String} {epdl : EPDL97 K}
    (h : loadEpdl strtod fs dir = .ok epdl) :
    ∃ b c, dir ≠ "" ∧ bindingScans strtod (fs (dir ++ "//" ++ "EADL97_BindingEnergies.dat")) = .ok b ∧
      crossScans strtod (fs (dir ++ "//" ++ "EPDL97_CrossSections.dat")) = .ok c ∧
      EPDL97.setDataDirectory EPDL97.new b c = (.ok (), epdl) := by
  unfold loadEpdl at h
  obtain ⟨p1, h1, h⟩ := Outcome.bind_eq_ok.1 h
  obtain ⟨p2, h2, h⟩ := Outcome.bind_eq_ok.1 h
  obtain ⟨b, h3, h⟩ := Outcome.bind_eq_ok.1 h
  obtain ⟨c, h4, h⟩ := Outcome.bind_eq_ok.1 h
  obtain ⟨u, h5, h⟩ := Outcome.bind_eq_ok.1 h
  cases h
  obtain ⟨hd, rfl⟩ := pathOf_ok h1
  obtain ⟨_, rfl⟩ := pathOf_ok h2
  exact ⟨b, c, hd, h3, h4, Prod.ext h5 rfl⟩

/-- The entries of a table of binding energies made of a file, over a former table. -/
theorem bindingTable_over (labels : List Str) : ∀ (rows : List (List K)) (old t : List (SMap Str K)),
    EPDL97.bindingTable labels rows old = .ok t → t.length = rows.length ∧ ∀ (i : Nat) (row : List K), rows[i]? = some row →
      ∃ b, t[i]? = some b ∧ EPDL97.bindingRow (labels.drop 1) (row.drop 1) (old.getD i []) = .ok b := by
  intro rows
  induction rows with
  | nil => intro old t h; cases h; exact ⟨rfl, fun i row h => by simp at h⟩
  | cons r rest ih =>
    intro old t h
    unfold EPDL97.bindingTable at h
    obtain ⟨m, hm, h⟩ := Outcome.bind_eq_ok.1 h
    obtain ⟨t', ht', h⟩ := Outcome.bind_eq_ok.1 h
    cases h
    obtain ⟨h1, h2⟩ := ih _ t' ht'
    refine ⟨by simp [h1], fun i row hi => ?_⟩
    cases i with
    | zero =>
      simp only [List.getElem?_cons_zero, Option.some.injEq] at hi
      subst hi
      refine ⟨m, rfl, ?_⟩
      rw [← hm]
      cases old <;> rfl
    | succ i =>
      obtain ⟨b, hb1, hb2⟩ := h2 i row (by simpa using hi)
      refine ⟨b, by simpa using hb1, ?_⟩
      rw [← hb2]
      cases old <;> simp

theorem bindingRow_sorted : ∀ (labels : List Str) (row : List K) (acc b : SMap Str K), acc.Sorted →
    EPDL97.bindingRow labels row acc = .ok b → b.Sorted
  | [], row, acc, b, hs, h => by
    unfold EPDL97.bindingRow at h; cases h; exact hs
  | l :: ls, [], acc, b, hs, h => by
    unfold EPDL97.bindingRow at h; cases h
  | l :: ls, v :: vs, acc, b, hs, h => by
    unfold EPDL97.bindingRow at h
    exact bindingRow_sorted ls vs _ b (SMap.insert_sorted hs _ _) h

/-- What a row of a file of binding energies puts in a map. -/
theorem bindingRow_energy {labels : List Str} {row : List K} {acc b : SMap Str K}
    (h : EPDL97.bindingRow (labels.drop 1) (row.drop 1) acc = .ok b) (s : Str) :
    (∀ v, EnergyIn labels row s v → b.find? s = some v) ∧ (Unnamed labels s → b.find? s = acc.find? s) ∧
    (Unnamed labels s ∨ ∃ v, EnergyIn labels row s v) := by
  obtain ⟨hlen, hb⟩ := EPDL97.bindingRow_find _ _ _ _ h
  refine ⟨?_, ?_, ?_⟩
  · rintro v ⟨k, label, h1, h2, h3, h4, h5⟩
    refine (hb s v).2 (Or.inl ⟨k - 1, label, ?_, h3, ?_, ?_⟩)
    · rw [List.getElem?_drop, ← h2]; congr 1; omega
    · rw [List.getElem?_drop, ← h4]; congr 1; omega
    · intro k' label' hk hl
      rw [List.getElem?_drop] at hl
      exact h5 (1 + k') label' (by omega) hl
  · intro hu
    have hu' : ∀ label ∈ labels.drop 1, ¬ EPDL97.NamesShell label s := by
      intro label hl
      obtain ⟨j, hj⟩ := List.mem_iff_getElem?.1 hl
      rw [List.getElem?_drop] at hj
      exact hu (1 + j) label (by omega) hj
    apply Option.ext
    intro v
    rw [hb]
    constructor
    · rintro (⟨k, label, h2, h3, _⟩ | ⟨_, h⟩)
      · exact absurd h3 (hu' label (List.mem_of_getElem? h2))
      · exact h
    · exact fun h => Or.inr ⟨hu', h⟩
  · by_cases hu : Unnamed labels s
    · exact Or.inl hu
    · right
      have hex : ∃ k : Nat, 1 ≤ k ∧ ∃ label, labels[k]? = some label ∧ EPDL97.NamesShell label s := by
        unfold Unnamed at hu
        push Not at hu
        obtain ⟨k, label, h1, h2, h3⟩ := hu
        exact ⟨k, h1, label, h2, h3⟩
      classical
      have hbound : ∀ k, (1 ≤ k ∧ ∃ label, labels[k]? = some label ∧ EPDL97.NamesShell label s) → k ≤ labels.length :=
        fun k ⟨_, _, hl, _⟩ => (List.getElem?_eq_some_iff.1 hl).1.le
      obtain ⟨k0, hk0⟩ := hex
      have hg := Nat.findGreatest_spec (P := fun k => 1 ≤ k ∧ ∃ label, labels[k]? = some label ∧ EPDL97.NamesShell label s)
        (hbound k0 hk0) hk0
      set g := Nat.findGreatest (fun k => 1 ≤ k ∧ ∃ label, labels[k]? = some label ∧ EPDL97.NamesShell label s) labels.length
        with hgd
      obtain ⟨hg1, label, hg2, hg3⟩ := hg
      have hlt : g < row.length := by
        have h1 := (List.getElem?_eq_some_iff.1 hg2).1
        simp only [List.length_drop] at hlen
        omega
      refine ⟨row[g], g, label, hg1, hg2, hg3, List.getElem?_eq_getElem hlt, ?_⟩
      intro k' label' hk hl hn
      have hP : 1 ≤ k' ∧ ∃ label, labels[k']? = some label ∧ EPDL97.NamesShell label s := ⟨by omega, label', hl, hn⟩
      exact absurd hP (Nat.findGreatest_is_greatest (by rw [← hgd]; exact hk) (hbound k' hP))

theorem getBinding_get {epdl : EPDL97 K} {n : Nat} {b : SMap Str K} (hb : epdl.binding ≠ [])
    (h : epdl.binding[min (n + 1) epdl.binding.length - 1]? = some b) : epdl.getBindingEnergies ((n : Int) + 1) = .ok b := by
  have hl : 0 < epdl.binding.length := List.length_pos_iff.2 hb
  unfold EPDL97.getBindingEnergies
  rw [if_neg (by omega)]
  have key : ∀ i : Int, i = ((min (n + 1) epdl.binding.length - 1 : Nat) : Int) → vgetI epdl.binding i = .ok b := by
    intro i hi
    obtain ⟨hlt, rfl⟩ := List.getElem?_eq_some_iff.1 h
    rw [hi, Element.vgetI_nat _ _ hlt]
  split_ifs with hz
  · exact key _ (by omega)
  · exact key _ (by omega)

theorem epdl_first {strtod : Str → K} {fs : Files} {dir : String} {epdl : EPDL97 K} (h : loadEpdl strtod fs dir = .ok epdl) :
    ∃ first : Scan K, FileScan strtod (fs (dir ++ "//" ++ "EADL97_BindingEnergies.dat")) 0 first ∧ first.rows ≠ [] ∧
      EPDL97.bindingTable first.labels first.rows [] = .ok epdl.binding := by
  obtain ⟨b, c, _, h1, _, h3⟩ := loadEpdl_ok h
  obtain ⟨scan, r, t, scans, p1, p2, p3, p4, p5, p6, p7⟩ := EPDL97.load_parts (congrArg Prod.fst h3)
  subst p1
  refine ⟨scan, (bindingScans_ok h1).2, (by intro h0; rw [h0] at p2; cases p2), ?_⟩
  rw [congrArg Prod.snd h3] at p7
  have p8 := congrArg EPDL97.binding p7
  simp only [EPDL97.loadCross_binding] at p8
  rw [p4, p8]

theorem epdl_second {strtod : Str → K} {fs : Files} {binding : String} {epdl epdl' : EPDL97 K} (hb : binding ≠ "")
    (h : otherBinding strtod fs binding epdl = .ok epdl') :
    ∃ second : Scan K, FileScan strtod (fs binding) 0 second ∧ second.rows ≠ [] ∧
      EPDL97.bindingTable second.labels second.rows epdl.binding = .ok epdl'.binding ∧
      epdl' = { epdl with binding := epdl'.binding, initialized := true } := by
  unfold otherBinding at h
  have h0 : binding.toList.length > 0 := by
    rw [gt_iff_lt, List.length_pos_iff]
    intro h'
    exact hb (String.toList_inj.1 (by simpa using h'))
  rw [if_pos h0] at h
  obtain ⟨b, h1, h⟩ := Outcome.bind_eq_ok.1 h
  obtain ⟨u, h2, h⟩ := Outcome.bind_eq_ok.1 h
  cases h
  unfold EPDL97.loadBindingEnergies at h2 ⊢
  cases b with
  | none => cases h2
  | some l =>
    rcases l with _ | ⟨scan, _ | ⟨s2, l⟩⟩
    · cases h2
    · simp only at h2 ⊢
      cases hr : scan.rows with
      | nil => rw [hr] at h2; cases h2
      | cons r rs =>
        rw [hr] at h2
        simp only at h2 ⊢
        split_ifs at h2 with hl
        rw [if_neg hl]
        cases ht : EPDL97.bindingTable scan.labels (r :: rs) epdl.binding with
        | ok t =>
          exact ⟨scan, (bindingScans_ok h1).2, by rw [hr]; simp, by rw [hr]; exact ht, rfl⟩
        | throw x => rw [ht] at h2; cases h2
        | ub x => rw [ht] at h2; cases h2
        | diverge => rw [ht] at h2; cases h2
    · cases h2

theorem otherBinding_none {strtod : Str → K} {fs : Files} {epdl epdl' : EPDL97 K}
    (h : otherBinding strtod fs "" epdl = .ok epdl') : epdl' = epdl := by
  unfold otherBinding at h
  simp at h
  exact h.symm

/-- The binding energies of the elements are those EPDL97 gives for their numbers. -/
theorem element_binding {on : Bool} {key : EscapeKey K} {strtod : Str → K} {fs : Files} {dir binding : String} {d : Database K}
    (h : setUp on key strtod fs dir binding = .ok d) {n : Nat} {i : Info} (hi : defaultElements[n]? = some i)
    {b : SMap Str K} (hs : b.Sorted) (hb : d.epdl.getBindingEnergies ((n : Int) + 1) = .ok b) :
    ∃ b', getBindingEnergies d i.symbol = .ok b' ∧ ∀ s, at0 b' s = at0 b s := by
  obtain ⟨a, e, hma, hae, _, hget⟩ := setUp_element h hi
  obtain ⟨_, _, t3⟩ := table_at hi
  obtain ⟨e0, b0, e1, t, m1, m2, m3, m4, m5, m6, m7⟩ := makeElement_ok hma
  rw [t3, hb] at m2
  cases m2
  refine ⟨e.data.binding, ?_, ?_⟩
  · unfold getBindingEnergies
    rw [hget]; rfl
  · intro s
    have e5 := (Element.setAll_ok (congrArg Prod.fst m5)).2.2.2.2.2.2.2.2.2.1
    rw [congrArg Prod.snd m5] at e5
    rw [hae.binding, e5 s]
    have := (Element.C120_read_back e0 b hs (congrArg Prod.fst m3)).1
    rw [congrArg Prod.snd m3] at this
    rw [this]

/-- **C121** Without a file of binding energies, the binding energies of the `n`-th element are those of row `n` of the
file `EADL97_BindingEnergies.dat` of the directory (of its last row for the elements it does not have), 0 for the shells
without column. -/
theorem C121_directory (on : Bool) (key : EscapeKey K) (strtod : Str → K) (fs : Files) (dir : String) (d : Database K)
    (h : setUp on key strtod fs dir "" = .ok d) (n : Nat) (i : Info) (hi : defaultElements[n]? = some i) :
    ∃ (scan : Scan K) (row : List K) (b : SMap Str K),
      FileScan strtod (fs (dir ++ "//" ++ "EADL97_BindingEnergies.dat")) 0 scan ∧
      scan.rows[min (n + 1) scan.rows.length - 1]? = some row ∧ getBindingEnergies d i.symbol = .ok b ∧
      ∀ s, (∀ v, EnergyIn scan.labels row s v → at0 b s = v) ∧ (Unnamed scan.labels s → at0 b s = 0) ∧
        (Unnamed scan.labels s ∨ ∃ v, EnergyIn scan.labels row s v) := by
  obtain ⟨epdl, els, st, h1, h2, _⟩ := setUp_ok h
  have hepdl := otherBinding_none h2
  obtain ⟨scan, f1, f2, f3⟩ := epdl_first h1
  obtain ⟨hl, hg⟩ := EPDL97.bindingTable_get _ _ _ f3
  have hpos : 0 < scan.rows.length := List.length_pos_iff.2 f2
  have hlt : min (n + 1) scan.rows.length - 1 < scan.rows.length := by omega
  obtain ⟨b, hb, hrow⟩ := hg _ _ (List.getElem?_eq_getElem hlt)
  have hne : epdl.binding ≠ [] := by
    intro h0; rw [h0] at hl; simp at hl; omega
  obtain ⟨b', hb1, hb2⟩ := element_binding h hi (bindingRow_sorted _ _ _ _ SMap.sorted_nil hrow)
    (by rw [hepdl]; exact getBinding_get hne (by rw [hl]; exact hb))
  refine ⟨scan, _, b', f1, List.getElem?_eq_getElem hlt, hb1, fun s => ?_⟩
  obtain ⟨r1, r2, r3⟩ := bindingRow_energy hrow s
  refine ⟨fun v hv => ?_, fun hu => ?_, r3⟩
  · rw [hb2, at0, r1 v hv]; rfl
  · rw [hb2, at0, r2 hu]; rfl

/-- **C121** With a file of binding energies, those of the `n`-th element are in row `n` of that file (the last one for the
elements it does not have); for the shells the file has no column for, they are those of the same row of
`EADL97_BindingEnergies.dat`, 0 when there is no such row or column. -/
theorem C121_file (on : Bool) (key : EscapeKey K) (strtod : Str → K) (fs : Files) (dir binding : String) (d : Database K)
    (hne : binding ≠ "") (h : setUp on key strtod fs dir binding = .ok d) (n : Nat) (i : Info)
    (hi : defaultElements[n]? = some i) :
    ∃ (first scan : Scan K) (row : List K) (b : SMap Str K),
      FileScan strtod (fs (dir ++ "//" ++ "EADL97_BindingEnergies.dat")) 0 first ∧ FileScan strtod (fs binding) 0 scan ∧
      scan.rows[min (n + 1) scan.rows.length - 1]? = some row ∧ getBindingEnergies d i.symbol = .ok b ∧
      ∀ s, (∀ v, EnergyIn scan.labels row s v → at0 b s = v) ∧ (Unnamed scan.labels s ∨ ∃ v, EnergyIn scan.labels row s v) ∧
        (Unnamed scan.labels s →
          (∀ row', first.rows[min (n + 1) scan.rows.length - 1]? = some row' →
            (∀ v, EnergyIn first.labels row' s v → at0 b s = v) ∧ (Unnamed first.labels s → at0 b s = 0)) ∧
          (first.rows[min (n + 1) scan.rows.length - 1]? = none → at0 b s = 0)) := by
  obtain ⟨epdl, els, st, h1, h2, _⟩ := setUp_ok h
  obtain ⟨first, f1, f2, f3⟩ := epdl_first h1
  obtain ⟨hl1, hg1⟩ := EPDL97.bindingTable_get _ _ _ f3
  obtain ⟨scan, s1, s2, s3, _⟩ := epdl_second hne h2
  obtain ⟨hl, hg⟩ := bindingTable_over _ _ _ _ s3
  have hpos : 0 < scan.rows.length := List.length_pos_iff.2 s2
  set j := min (n + 1) scan.rows.length - 1 with hj
  have hlt : j < scan.rows.length := by omega
  obtain ⟨b, hb, hrow⟩ := hg _ _ (List.getElem?_eq_getElem hlt)
  have hne' : d.epdl.binding ≠ [] := by
    intro h0; rw [h0] at hl; simp at hl; omega
  have hold : (epdl.binding.getD j []).Sorted := by
    rcases lt_or_ge j first.rows.length with hj1 | hj1
    · obtain ⟨b1, hb1, hr1⟩ := hg1 _ _ (List.getElem?_eq_getElem hj1)
      rw [List.getD_eq_getElem?_getD, hb1]
      exact bindingRow_sorted _ _ _ _ SMap.sorted_nil hr1
    · rw [List.getD_eq_getElem?_getD, List.getElem?_eq_none (by omega)]
      exact SMap.sorted_nil
  obtain ⟨b', hb1, hb2⟩ := element_binding h hi (bindingRow_sorted _ _ _ _ hold hrow)
    (getBinding_get hne' (by rw [hl]; exact hb))
  refine ⟨first, scan, _, b', f1, s1, List.getElem?_eq_getElem hlt, hb1, fun s => ?_⟩
  obtain ⟨r1, r2, r3⟩ := bindingRow_energy hrow s
  refine ⟨fun v hv => ?_, r3, fun hu => ⟨fun row' hrow' => ?_, fun hnone => ?_⟩⟩
  · rw [hb2, at0, r1 v hv]; rfl
  · obtain ⟨b1, hb1', hr1⟩ := hg1 _ _ hrow'
    obtain ⟨q1, q2, _⟩ := bindingRow_energy hr1 s
    have : at0 b' s = at0 b1 s := by
      rw [hb2, at0, r2 hu, List.getD_eq_getElem?_getD, hb1']; rfl
    refine ⟨fun v hv => ?_, fun hu' => ?_⟩
    · rw [this, at0, q1 v hv]; rfl
    · rw [this, at0, q2 hu']; rfl
  · rw [hb2, at0, r2 hu, List.getD_eq_getElem?_getD, List.getElem?_eq_none]
    · rfl
    · rw [hl1]; exact List.getElem?_eq_none_iff.1 hnone

end Init
end Fisx
