import Verif.MultilayerMono
import Verif.MultilayerEnv
import Verif.LibraryProps
import Verif.FiltersExample

/-!
# Adding to the library (C161)

An element or a material added under a new name does not change what was known before: compositions, coefficients, escape peaks and
whole calculations. An element whose name is also the name of a material is another matter.
-/

set_option linter.unusedSectionVars false

namespace Fisx
namespace Library

open Outcome (Le)

variable {K : Type} [Field K] [LinearOrder K]

/-- `y` is `x` wherever `x` is a composition that is not empty. -/
def Keeps (x y : Outcome (SMap String K)) : Prop := ∀ c, c ≠ [] → x = .ok c → y = .ok c

/-- The library `L'` has everything that `L` has, and the names of the materials (of the library, or in the list `extra`) have not become
formulas. -/
structure Extends (pf : String → Outcome (SMap String K)) (extra : List (Material K)) (L L' : Library K) : Prop where
  dict : ∀ n i, L.dict.find? n = some i → L'.dict.find? n = some i
  elements : ∀ (i : Nat) (e : LibElement K), L.elements[i]? = some e → L'.elements[i]? = some e
  lookup : ∀ n m, L.lookup n = some m → L'.lookup n = some m
  shadow : ∀ n, (L.lookup n ≠ none ∨ ∃ m ∈ extra, m.name = n) → L.formula pf n = .ok [] → L'.formula pf n = .ok []
  element : ∀ n fuel c, comp pf L fuel n = .ok c → c ≠ [] → L'.dict.mem n = true → L.dict.mem n = true
  escapeOn : L'.escapeOn = L.escapeOn
  escape : L'.escape = L.escape
  escapeKey : L'.escapeKey = L.escapeKey

variable {pf : String → Outcome (SMap String K)} {extra : List (Material K)} {L L' : Library K}

theorem masses_extends (h : Extends pf extra L L') : ∀ (f m : List (String × K)), L.masses f = some m → L'.masses f = some m
  | [], m, hm => hm
  | (n, x) :: rest, m, hm => by
    unfold masses at hm ⊢
    split at hm
    · cases hm
    · rename_i i hi
      rw [h.dict n i hi]
      split at hm
      · cases hm
      · rename_i e he
        dsimp only
        rw [h.elements i e he]
        dsimp only
        cases hr : L.masses rest with
        | none => rw [hr] at hm; cases hm
        | some r => rw [masses_extends h rest r hr]; rw [hr] at hm; exact hm

theorem formula_extends (h : Extends pf extra L L') (n : String) : Keeps (L.formula pf n) (L'.formula pf n) := by
  intro c hc hf
  unfold formula at hf ⊢
  obtain ⟨f, h1, h2⟩ := Outcome.bind_eq_ok.1 hf
  rw [h1, Outcome.ok_bind]
  cases hm : L.masses f with
  | none => rw [hm] at h2; cases h2; exact absurd rfl hc
  | some m => rw [hm] at h2; rw [masses_extends h f m hm]; exact h2

theorem mixLoop_keeps {f g : String → Outcome (SMap String K)} (hfg : ∀ n, Keeps (f n) (g n)) : ∀ (items : List (String × K))
    (acc : SMap String K), Keeps (mixLoop f items acc) (mixLoop g items acc)
  | [], acc, c, _, h => h
  | (n, w) :: rest, acc, c, hc, h => by
    unfold mixLoop at h ⊢
    obtain ⟨r, h1, h2⟩ := Outcome.bind_eq_ok.1 h
    split at h2
    · cases h2; exact absurd rfl hc
    · rename_i hr
      rw [hfg n r hr h1, Outcome.ok_bind, if_neg hr]
      exact mixLoop_keeps hfg rest _ c hc h2

theorem comp_extends (h : Extends pf extra L L') : ∀ (fuel : Nat) (n : String), Keeps (comp pf L fuel n) (comp pf L' fuel n)
  | 0, n, c, _, hx => by simp [comp] at hx
  | fuel + 1, n, c, hc, hx => by
    unfold comp at hx ⊢
    obtain ⟨r, h1, h2⟩ := Outcome.bind_eq_ok.1 hx
    split at h2
    · rename_i hr
      have hr' : r ≠ [] := by rintro rfl; simp at hr
      rw [formula_extends h n r hr' h1, Outcome.ok_bind, if_pos hr]
      exact h2
    · rename_i hr
      have hr' : r = [] := by
        cases r with
        | nil => rfl
        | cons a b => simp at hr
      subst hr'
      split at h2
      · cases h2; exact absurd rfl hc
      · rename_i m hm
        rw [h.shadow n (Or.inl (by rw [hm]; simp)) h1, Outcome.ok_bind, if_neg hr, h.lookup n m hm]
        dsimp only
        split at h2
        · cases h2
        · rename_i hl
          rw [if_neg hl]
          exact mixLoop_keeps (comp_extends h fuel) _ _ c hc h2

theorem normalise_ne {c : SMap String K} (h : normalise c ≠ []) : c ≠ [] := by
  rintro rfl
  exact h rfl

theorem comp_named {fuel : Nat} {n : String} {c : SMap String K} (h : comp pf L fuel n = .ok c) (hc : c ≠ [])
    (hf : L.formula pf n = .ok []) : L.lookup n ≠ none := by
  intro hl
  cases fuel with
  | zero => simp [comp] at h
  | succ fuel =>
    unfold comp at h
    rw [hf, Outcome.ok_bind, hl] at h
    simp only [List.length_nil, Nat.lt_irrefl, gt_iff_lt, if_false] at h
    cases h
    exact hc rfl

theorem compWith_extends (h : Extends pf extra L L') : ∀ (fuel : Nat) (n : String),
    Keeps (compWith pf L extra fuel n) (compWith pf L' extra fuel n)
  | 0, n, c, _, hx => by simp [compWith] at hx
  | fuel + 1, n, c, hc, hx => by
    unfold compWith at hx ⊢
    obtain ⟨r, h1, h2⟩ := Outcome.bind_eq_ok.1 hx
    split at h2
    · rename_i hr
      have hr' : r ≠ [] := by rintro rfl; simp at hr
      rw [formula_extends h n r hr' h1, Outcome.ok_bind, if_pos hr]
      exact h2
    · rename_i hr
      have hr' : r = [] := by
        cases r with
        | nil => rfl
        | cons a b => simp at hr
      subst hr'
      split at h2
      · rename_i he
        have hl := comp_named h2 hc h1
        rw [h.shadow n (Or.inl hl) h1, Outcome.ok_bind, if_neg hr, if_pos he]
        exact comp_extends h fuel n c hc h2
      · rename_i he
        obtain ⟨t, h3, h4⟩ := Outcome.bind_eq_ok.1 h2
        split at h4
        · cases h4
        · rename_i ht
          have ht' : t ≠ [] := by rintro rfl; simp at ht
          obtain ⟨m, h5, h6⟩ := Outcome.bind_eq_ok.1 h4
          have hown : ownComposition pf L' extra fuel n = .ok t ∧ L'.formula pf n = .ok [] := by
            unfold ownComposition at h3 ⊢
            cases hfind : extra.find? (fun m => m.name == n) with
            | some m =>
              rw [hfind] at h3
              refine ⟨h3, h.shadow n (Or.inr ⟨m, List.mem_of_find?_eq_some hfind, ?_⟩) h1⟩
              simpa using List.find?_some hfind
            | none =>
              rw [hfind] at h3
              dsimp only at h3 ⊢
              exact ⟨comp_extends h fuel n t ht' h3, h.shadow n (Or.inl (comp_named h3 ht' h1)) h1⟩
          rw [hown.2, Outcome.ok_bind, if_neg hr, if_neg he, hown.1, Outcome.ok_bind, if_neg ht]
          have hm : m ≠ [] := by
            rintro rfl
            cases h6
            exact hc rfl
          rw [mixLoop_keeps (compWith_extends h fuel) _ _ m hm h5, Outcome.ok_bind]
          exact h6

theorem compMap_extends (h : Extends pf extra L L') (fuel : Nat) (input : SMap String K) :
    Keeps (compMap pf L extra fuel input) (compMap pf L' extra fuel input) := by
  intro c hc hx
  unfold compMap at hx ⊢
  obtain ⟨m, h5, h6⟩ := Outcome.bind_eq_ok.1 hx
  have hm : m ≠ [] := by
    rintro rfl
    cases h6
    exact hc rfl
  rw [mixLoop_keeps (compWith_extends h fuel) _ _ m hm h5, Outcome.ok_bind]
  exact h6

theorem amountsLoop_extends (h : Extends pf extra L L') (fuel : Nat) : ∀ (items : List (String × K)) (acc : SMap String K) (total : K),
    Le (amountsLoop pf L fuel items acc total) (amountsLoop pf L' fuel items acc total)
  | [], _, _ => Le.refl _
  | (n, w) :: rest, acc, total => by
    intro v hv
    unfold amountsLoop at hv ⊢
    split at hv
    · cases hv
    · rename_i hw
      rw [if_neg hw]
      obtain ⟨c, h1, h2⟩ := Outcome.bind_eq_ok.1 hv
      split at h2
      · cases h2
      · rename_i hl
        rw [comp_extends h fuel n c (by rintro rfl; simp at hl) h1, Outcome.ok_bind, if_neg hl]
        exact amountsLoop_extends h fuel rest _ _ v h2

theorem amounts_extends (h : Extends pf extra L L') (fuel : Nat) (input : SMap String K) (isComp : Bool) :
    Le (amounts pf L fuel input isComp) (amounts pf L' fuel input isComp) := by
  unfold amounts
  exact Outcome.Le.ite (Le.refl _) ((amountsLoop_extends h fuel _ _ _).bind fun r => Le.refl _)

theorem getElement_extends (h : Extends pf extra L L') (n : String) : Le (L.getElement n) (L'.getElement n) := by
  intro v hv
  unfold getElement isElementNameDefined at hv ⊢
  by_cases h0 : n.length = 0
  · simp [h0] at hv
  rw [if_neg h0] at hv ⊢
  by_cases hd : L.dict.mem n = true
  swap
  · rw [if_neg hd] at hv; cases hv
  rw [if_pos hd] at hv
  cases hf : L.dict.find? n with
  | none => rw [hf] at hv; cases hv
  | some i =>
    rw [hf] at hv
    dsimp only at hv
    have hf' := h.dict n i hf
    have hmem : L'.dict.mem n = true := by simp [SMap.mem, hf']
    rw [if_pos hmem, hf']
    dsimp only
    unfold vget at hv ⊢
    cases he : L.elements[i]? with
    | none => rw [he] at hv; cases hv
    | some e => rw [he] at hv; rw [h.elements i e he]; exact hv

section
variable [Trans K]

theorem mixSum_extends (h : Extends pf extra L L') (total energy : K) : ∀ (items : List (String × K)) (acc : Mix K),
    Le (mixSum L total energy items acc) (mixSum L' total energy items acc)
  | [], _ => Le.refl _
  | (n, w) :: rest, acc => by
    intro v hv
    unfold mixSum at hv ⊢
    cases hf : L.dict.find? n with
    | none => rw [hf] at hv; cases hv
    | some i =>
      rw [hf] at hv
      rw [h.dict n i hf]
      dsimp only at hv ⊢
      obtain ⟨e, h1, h2⟩ := Outcome.bind_eq_ok.1 hv
      have : vget L'.elements i = .ok e := by
        unfold vget at h1 ⊢
        cases he : L.elements[i]? with
        | none => rw [he] at h1; cases h1
        | some e' => rw [he] at h1; rw [h.elements i e' he]; exact h1
      rw [this, Outcome.ok_bind]
      obtain ⟨m, h3, h4⟩ := Outcome.bind_eq_ok.1 h2
      rw [h3, Outcome.ok_bind]
      exact mixSum_extends h total energy rest _ v h4

theorem mixMu_extends (h : Extends pf extra L L') (fuel : Nat) (input : SMap String K) (energy : K) (isComp : Bool) :
    Le (mixMu pf L fuel input energy isComp) (mixMu pf L' fuel input energy isComp) := by
  unfold mixMu
  exact (amounts_extends h fuel input isComp).bind fun a => (mixSum_extends h _ _ _ _).bind fun s => Le.refl _

theorem mixList_extends (h : Extends pf extra L L') (a : SMap String K × K) : ∀ es : List K, Le (mixList L a es) (mixList L' a es)
  | [] => Le.refl _
  | x :: rest => by
    unfold mixList
    exact (mixSum_extends h _ _ _ _).bind fun s => (mixList_extends h a rest).bind fun r => Le.refl _

theorem mixMus_extends (h : Extends pf extra L L') (fuel : Nat) (input : SMap String K) (es : List K) (isComp : Bool) :
    Le (mixMus pf L fuel input es isComp) (mixMus pf L' fuel input es isComp) := by
  unfold mixMus
  exact (amounts_extends h fuel input isComp).bind fun a => mixList_extends h a es

theorem nameMu_extends (h : Extends pf extra L L') (fuel : Nat) (name : String) (energy : K) :
    Le (nameMu pf L fuel name energy) (nameMu pf L' fuel name energy) := by
  intro v hv
  unfold nameMu at hv ⊢
  split at hv
  · rename_i hm
    have hm' : L'.dict.mem name = true := by
      unfold SMap.mem at hm ⊢
      cases hf : L.dict.find? name with
      | none => rw [hf] at hm; simp at hm
      | some i => rw [h.dict name i hf]; rfl
    rw [if_pos hm']
    exact ((getElement_extends h name).bind fun e => Le.refl _) v hv
  · rename_i hm
    obtain ⟨c, h1, h2⟩ := Outcome.bind_eq_ok.1 hv
    split at h2
    · cases h2
    · rename_i hl
      have hc : c ≠ [] := by rintro rfl; simp at hl
      rw [if_neg (fun hx => hm (h.element name fuel c h1 hc hx)), comp_extends h fuel name c hc h1, Outcome.ok_bind, if_neg hl]
      exact mixMu_extends h fuel c energy false v h2

theorem mixMu_nil (pf : String → Outcome (SMap String K)) (L : Library K) (fuel : Nat) (energy : K) (v : Mix K) :
    mixMu pf L fuel [] energy false ≠ .ok v := by
  simp [mixMu, amounts, amountsLoop, Outcome.ok_bind]

theorem mixMus_nil (pf : String → Outcome (SMap String K)) (L : Library K) (fuel : Nat) (es : List K) (v : List (Mix K)) :
    mixMus pf L fuel [] es false ≠ .ok v := by
  simp [mixMus, amounts, amountsLoop, Outcome.ok_bind]

end

theorem familiesLoop_extends (h : Extends pf extra L L') (energy : K) : ∀ names : List String,
    Le (familiesLoop L names energy) (familiesLoop L' names energy)
  | [] => Le.refl _
  | n :: rest => by
    unfold familiesLoop
    exact (getElement_extends h n).bind fun e => Outcome.Le.bind (Le.refl _) fun f =>
      (familiesLoop_extends h energy rest).bind fun r => Le.refl _

theorem peakFamilies_extends (h : Extends pf extra L L') (srt : List (String × K) → List (String × K)) (names : List String)
    (energy : K) : Le (peakFamilies srt L names energy) (peakFamilies srt L' names energy) := by
  unfold peakFamilies
  exact (familiesLoop_extends h energy names).bind fun r => Le.refl _

section
variable [IsStrictOrderedRing K] [Trans K] [Trig K]

theorem escapeLines_extends (h : Extends pf extra L L') (fuel : Nat) (key : EscapeKey K) (energy mu : K) (el : String) :
    ∀ (lines : List (Str × Factor K)) (acc : SMap String (Line K)),
    Le (escapeLines pf L fuel key energy mu el lines acc) (escapeLines pf L' fuel key energy mu el lines acc)
  | [], _ => Le.refl _
  | (t, f) :: rest, acc => by
    unfold escapeLines
    exact (mixMu_extends h fuel _ _ _).bind fun mf => escapeLines_extends h fuel key energy mu el rest _

theorem escapeElements_extends (h : Extends pf extra L L') (fuel : Nat) (key : EscapeKey K) (energy mu : K) :
    ∀ (items : List (String × K)) (acc : SMap String (Line K)),
    Le (escapeElements pf L fuel key energy mu items acc) (escapeElements pf L' fuel key energy mu items acc)
  | [], _ => Le.refl _
  | (n, w) :: rest, acc => by
    unfold escapeElements
    exact (getElement_extends h n).bind fun e => Outcome.Le.bind (Le.refl _) fun f =>
      (escapeLines_extends h fuel key energy mu n f acc).bind fun a => escapeElements_extends h fuel key energy mu rest a

theorem computeEscape_extends (h : Extends pf extra L L') (fuel : Nat) (key : EscapeKey K) (energy : K) :
    Le (computeEscape pf L fuel key energy) (computeEscape pf L' fuel key energy) := by
  unfold computeEscape
  exact (mixMu_extends h fuel _ _ _).bind fun mi => escapeElements_extends h fuel key energy _ _ _

theorem getEscape_extends (h : Extends pf extra L L') (fuel : Nat) (key : EscapeKey K) (energy : K) :
    Le (getEscape pf L fuel key energy) (getEscape pf L' fuel key energy) := by
  unfold getEscape escapeCompatible
  rw [h.escapeOn, h.escape, h.escapeKey]
  split
  · split
    · exact Le.refl _
    · exact computeEscape_extends h fuel key energy
  · exact computeEscape_extends h fuel key energy

theorem getEscape_nil {fuel : Nat} (ht : EscapeTrue pf fuel L) {key : EscapeKey K} (hk : key.composition = []) (energy : K)
    (r : SMap String (Line K)) : getEscape pf L fuel key energy ≠ .ok r := by
  rw [getEscape_true pf fuel L ht]
  unfold computeEscape
  intro hx
  obtain ⟨m, h1, -⟩ := Outcome.bind_eq_ok.1 hx
  rw [hk] at h1
  exact mixMu_nil pf L fuel energy m h1

end

/-! ## The calls that add -/

theorem extends_material (L : Library K) (pf : String → Outcome (SMap String K)) (extra : List (Material K)) (m : Material K) (flag : Bool)
    (hnew : m.name ∉ L.getMaterialNames) :
    (L.addMaterialObject m flag).1 = .ok () ∧ Extends pf extra L (L.addMaterialObject m flag).2 := by
  have hidx : ¬ L.materialIndex m.name < L.materials.length := by
    unfold materialIndex
    rw [List.findIdx_lt_length]
    rintro ⟨x, hx, hn⟩
    apply hnew
    unfold getMaterialNames
    rw [← (by simpa using hn : x.name = m.name)]
    exact List.mem_map_of_mem hx
  unfold addMaterialObject
  dsimp only
  rw [if_neg hidx]
  refine ⟨rfl, ?_⟩
  exact {
    dict := fun _ _ h => h, elements := fun _ _ h => h
    lookup := by
      intro n x hx
      unfold lookup at hx ⊢
      rw [List.find?_append, hx]
      rfl
    shadow := by
      intro n _ hf
      have hm : ∀ f : List (String × K), ({ L with materials := L.materials ++ [m] } : Library K).masses f = L.masses f := by
        intro f
        induction f with
        | nil => rfl
        | cons p f ih => unfold masses; rw [ih]
      unfold formula at hf ⊢
      simp only [hm]
      exact hf
    element := fun _ _ _ _ _ h => h
    escapeOn := rfl, escape := rfl, escapeKey := rfl }

theorem masses_new {L : Library K} (hinv : Inv L) (e : LibElement K) (hnew : L.dict.find? e.name = none) :
    ∀ f : List (String × K), e.name ∉ f.map Prod.fst →
      ({ L with dict := L.dict.insert e.name L.elements.length, elements := L.elements ++ [e] } : Library K).masses f = L.masses f
  | [], _ => rfl
  | (n, x) :: rest, hf => by
    simp only [List.map_cons, List.mem_cons, not_or] at hf
    unfold masses
    dsimp only
    rw [SMap.find?_insert, if_neg hf.1, masses_new hinv e hnew rest hf.2]
    cases hd : L.dict.find? n with
    | none => rfl
    | some i =>
      dsimp only
      have hi : i < L.elements.length := by
        have := (hinv n i).1 hd
        unfold getElementNames at this
        rw [List.getElem?_map] at this
        by_contra hlt
        rw [List.getElem?_eq_none (not_lt.1 hlt)] at this
        cases this
      rw [List.getElem?_append_left hi]

theorem extends_element (L : Library K) (hinv : Inv L) (pf : String → Outcome (SMap String K)) (extra : List (Material K))
    (e : LibElement K) (hnew : e.name ∉ L.getElementNames)
    (hname : ∀ fuel c, comp pf L fuel e.name = .ok c → c = [])
    (hmat : ∀ n f, (n ∈ L.getMaterialNames ∨ ∃ m ∈ extra, m.name = n) → pf n = .ok f → e.name ∉ f.map Prod.fst) :
    (L.addElement e).1 = .ok () ∧ Extends pf extra L (L.addElement e).2 := by
  have hd : L.dict.find? e.name = none := by
    cases h : L.dict.find? e.name with
    | none => rfl
    | some i => exact absurd (List.mem_of_getElem? ((hinv _ _).1 h)) hnew
  unfold addElement
  rw [hd]
  refine ⟨rfl, ?_⟩
  dsimp only
  exact {
    dict := by
      intro n i h
      rw [SMap.find?_insert, if_neg, h]
      rintro rfl
      rw [hd] at h
      cases h
    elements := by
      intro i x h
      rw [List.getElem?_append_left (by
        by_contra hlt
        rw [List.getElem?_eq_none (not_lt.1 hlt)] at h
        cases h)]
      exact h
    lookup := fun _ _ h => h
    shadow := by
      intro n hn hf
      unfold formula at hf ⊢
      obtain ⟨f, h1, h2⟩ := Outcome.bind_eq_ok.1 hf
      rw [h1, Outcome.ok_bind, masses_new hinv e hd]
      · exact h2
      · refine hmat n f ?_ h1
        rcases hn with hn | hn
        · left
          unfold lookup at hn
          obtain ⟨m, hm⟩ := Option.ne_none_iff_exists'.1 hn
          unfold getMaterialNames
          rw [← (by simpa using List.find?_some hm : m.name = n)]
          exact List.mem_map_of_mem (List.mem_of_find?_eq_some hm)
        · exact Or.inr hn
    element := by
      intro n fuel c hc hne hm
      by_cases hx : n = e.name
      · subst hx
        exact absurd (hname fuel c hc) hne
      · unfold SMap.mem at hm ⊢
        rw [SMap.find?_insert, if_neg (Ne.symm hx)] at hm
        exact hm
    escapeOn := rfl, escape := rfl, escapeKey := rfl }

theorem Extends.nil (h : Extends pf extra L L') : Extends pf [] L L' :=
  { h with shadow := fun n hn => h.shadow n (by
      rcases hn with hn | ⟨m, hm, -⟩
      · exact Or.inl hn
      · cases hm) }

/-- **C161** (compositions and coefficients) A material added under a name that no material has changes nothing that was known: every
composition that was found, for a name or for a mixture, with or without materials supplied with the call, and every coefficient
of a mixture or of a name, is still found and the same. -/
theorem C161_material_composition [IsStrictOrderedRing K] [Trans K] (pf : String → Outcome (SMap String K)) (L : Library K)
    (supplied : List (Material K)) (m : Material K) (flag : Bool) (hnew : m.name ∉ L.getMaterialNames) (fuel : Nat) :
    (L.addMaterialObject m flag).1 = .ok () ∧
    (∀ n c, c ≠ [] → comp pf L fuel n = .ok c → comp pf (L.addMaterialObject m flag).2 fuel n = .ok c) ∧
    (∀ n c, c ≠ [] → compWith pf L supplied fuel n = .ok c → compWith pf (L.addMaterialObject m flag).2 supplied fuel n = .ok c) ∧
    (∀ a c, c ≠ [] → compMap pf L supplied fuel a = .ok c → compMap pf (L.addMaterialObject m flag).2 supplied fuel a = .ok c) ∧
    (∀ a e b v, mixMu pf L fuel a e b = .ok v → mixMu pf (L.addMaterialObject m flag).2 fuel a e b = .ok v) ∧
    (∀ n e v, nameMu pf L fuel n e = .ok v → nameMu pf (L.addMaterialObject m flag).2 fuel n e = .ok v) := by
  obtain ⟨h1, h2⟩ := extends_material L pf supplied m flag hnew
  exact ⟨h1, fun n c hc h => comp_extends h2 fuel n c hc h, fun n c hc h => compWith_extends h2 fuel n c hc h,
    fun a c hc h => compMap_extends h2 fuel a c hc h, fun a e b v h => mixMu_extends h2 fuel a e b v h,
    fun n e v h => nameMu_extends h2 fuel n e v h⟩

/-- **C161** (compositions and coefficients) The same for an element added under a name that no element has, that meant nothing before, and
that does not occur in the name of a material read as a formula (missing: `C161_shadow_violated`). -/
theorem C161_element_composition_partial [IsStrictOrderedRing K] [Trans K] (pf : String → Outcome (SMap String K)) (L : Library K)
    (hinv : Inv L) (supplied : List (Material K)) (e : LibElement K) (hnew : e.name ∉ L.getElementNames)
    (hname : ∀ fuel c, comp pf L fuel e.name = .ok c → c = [])
    (hmat : ∀ n f, (n ∈ L.getMaterialNames ∨ ∃ m ∈ supplied, m.name = n) → pf n = .ok f → e.name ∉ f.map Prod.fst) (fuel : Nat) :
    (L.addElement e).1 = .ok () ∧
    (∀ n c, c ≠ [] → comp pf L fuel n = .ok c → comp pf (L.addElement e).2 fuel n = .ok c) ∧
    (∀ n c, c ≠ [] → compWith pf L supplied fuel n = .ok c → compWith pf (L.addElement e).2 supplied fuel n = .ok c) ∧
    (∀ a c, c ≠ [] → compMap pf L supplied fuel a = .ok c → compMap pf (L.addElement e).2 supplied fuel a = .ok c) ∧
    (∀ a x b v, mixMu pf L fuel a x b = .ok v → mixMu pf (L.addElement e).2 fuel a x b = .ok v) ∧
    (∀ n x v, nameMu pf L fuel n x = .ok v → nameMu pf (L.addElement e).2 fuel n x = .ok v) := by
  obtain ⟨h1, h2⟩ := extends_element L hinv pf supplied e hnew hname hmat
  exact ⟨h1, fun n c hc h => comp_extends h2 fuel n c hc h, fun n c hc h => compWith_extends h2 fuel n c hc h,
    fun a c hc h => compMap_extends h2 fuel a c hc h, fun a e b v h => mixMu_extends h2 fuel a e b v h,
    fun n e v h => nameMu_extends h2 fuel n e v h⟩

/-- A material called like an element that is not in the library. -/
def shadowed : Library ℚ := (nested.addMaterialObject { (Material.new : Material ℚ) with name := "Fe", composition := [("H", 1)] } true).2

/-- C161 is violated: adding an element under a new name changes the composition of a material that is called like the element, and with it
that of all materials made of it. -/
theorem C161_shadow_violated (d : Element ℚ) :
    "Fe" ∉ shadowed.getElementNames ∧ comp examplePf shadowed 5 "Fe" = .ok [("H", 1)] ∧
      comp examplePf (shadowed.addElement ⟨"Fe", 56, d⟩).2 5 "Fe" = .ok [("Fe", 1)] := by
  refine ⟨by decide +kernel, by decide +kernel, ?_⟩
  have h : shadowed.dict.find? "Fe" = none := by decide +kernel
  unfold addElement
  rw [h]
  have hf : examplePf "Fe" = .ok [("Fe", 1)] := by decide +kernel
  have hl : shadowed.elements.length = 3 := by decide +kernel
  show comp examplePf _ (4 + 1) "Fe" = _
  unfold comp formula
  rw [hf, Outcome.ok_bind]
  have hm : ({ shadowed with dict := shadowed.dict.insert "Fe" shadowed.elements.length, elements := shadowed.elements ++ [⟨"Fe", 56, d⟩] } : Library ℚ).masses [("Fe", 1)] = some [("Fe", 1 * 56)] := by
    unfold masses
    dsimp only
    rw [SMap.find?_insert, if_pos rfl]
    dsimp only
    rw [List.getElem?_append_right (le_refl _), Nat.sub_self]
    rfl
  dsimp only at hm ⊢
  rw [hm]
  dsimp only
  rw [Outcome.pure_eq, Outcome.ok_bind, if_pos (by simp)]
  simp [SMap.total]

/-- The hypotheses are met, and the composition of mud is kept, when iron or clay is added. -/
example (d : Element ℚ) [Trans ℚ] [Trig ℚ] :
    comp examplePf (nested.addElement ⟨"Fe", 56, d⟩).2 5 "mud" = .ok [("H", 1 / 24), ("O", 101 / 120), ("Si", 7 / 60)] := by
  have hp : examplePf "Fe" = .ok [("Fe", 1)] := by decide +kernel
  refine (C161_element_composition_partial examplePf nested (inv_run examplePf 5 false exampleKey nestedOps) [] ⟨"Fe", 56, d⟩
    (show "Fe" ∉ nested.getElementNames by decide +kernel) ?_ ?_ 5).2.1 "mud" _ (by simp) (by decide +kernel)
  · intro fuel c hc
    cases fuel with
    | zero => simp [comp] at hc
    | succ fuel =>
      have hf : nested.formula examplePf "Fe" = .ok [] := by decide +kernel
      have hl : (nested.lookup "Fe").isNone = true := by decide +kernel
      unfold comp at hc
      rw [hf, Outcome.ok_bind, Option.isNone_iff_eq_none.1 hl] at hc
      cases hc
      rfl
  · intro n f hn hf
    have hall : ∀ n ∈ nested.getMaterialNames, ∀ f ∈ (match examplePf n with | .ok f => [f] | _ => []), "Fe" ∉ f.map Prod.fst := by
      decide +kernel
    rcases hn with hn | ⟨m, hm, -⟩
    · exact hall n hn f (by rw [hf]; simp)
    · cases hm

end Library

namespace Multilayer

open Outcome (Le)
open Library (Extends Keeps EscapeTrue)
open Xrf (Request)

variable {R : Type} {pf : String → Outcome (SMap String ℝ)} {fuel : Nat} {L L' : Library ℝ} {c : Config ℝ R}

theorem layerComposition_extends (h : Extends pf c.materials L L') (l : Layer ℝ) :
    Keeps (layerComposition pf fuel L c l) (layerComposition pf fuel L' c l) := by
  unfold layerComposition
  split
  · exact Library.compMap_extends h fuel _
  · exact Library.compWith_extends h fuel _

theorem layerMu_extends (h : Extends pf c.materials L L') (l : Layer ℝ) (e : ℝ) (comp : SMap String ℝ) :
    Le (layerMu pf fuel L c l e comp) (layerMu pf fuel L' c l e comp) := by
  unfold layerMu
  refine Outcome.Le.ite (Library.mixMu_extends h _ _ _ _) ?_
  intro v hv
  obtain ⟨m, h1, h2⟩ := Outcome.bind_eq_ok.1 hv
  have hm : m ≠ [] := by
    rintro rfl
    exact Library.mixMu_nil pf L fuel e v h2
  rw [layerComposition_extends h l m hm h1, Outcome.ok_bind]
  exact Library.mixMu_extends h _ _ _ _ v h2

theorem layerMus_extends (h : Extends pf c.materials L L') (l : Layer ℝ) (es : List ℝ) (comp : SMap String ℝ) :
    Le (layerMus pf fuel L c l es comp) (layerMus pf fuel L' c l es comp) := by
  unfold layerMus
  refine Outcome.Le.ite (Library.mixMus_extends h _ _ _ _) ?_
  intro v hv
  obtain ⟨m, h1, h2⟩ := Outcome.bind_eq_ok.1 hv
  have hm : m ≠ [] := by
    rintro rfl
    exact Library.mixMus_nil pf L fuel es v h2
  rw [layerComposition_extends h l m hm h1, Outcome.ok_bind]
  exact Library.mixMus_extends h _ _ _ _ v h2

theorem layerTransmissions_extends (h : Extends pf c.materials L L') (l : Layer ℝ) (es : List ℝ) (angle : ℝ) (comp : SMap String ℝ) :
    Le (layerTransmissions pf fuel L c l es angle comp) (layerTransmissions pf fuel L' c l es angle comp) := by
  unfold layerTransmissions Layer.getTransmissions
  refine Outcome.Le.bind ?_ fun ts => Le.refl _
  exact Outcome.Le.ite (Le.refl _) (((layerMus_extends h l es comp).bind fun _ => Le.refl _).bind fun _ => Le.refl _)

theorem layerTransmission_extends (h : Extends pf c.materials L L') (l : Layer ℝ) (e : ℝ) (angle : ℝ) (comp : SMap String ℝ) :
    Le (layerTransmission pf fuel L c l e angle comp) (layerTransmission pf fuel L' c l e angle comp) := by
  unfold layerTransmission
  exact (layerTransmissions_extends h l _ angle comp).bind fun _ => Le.refl _

theorem detectorMu_extends {extra : List (Material ℝ)} (h : Extends pf extra L L') (d : Layer ℝ) (e : ℝ) :
    Le (detectorMu pf fuel L d e) (detectorMu pf fuel L' d e) := by
  unfold detectorMu
  exact Outcome.Le.bind (Outcome.Le.ite (Library.mixMu_extends h _ _ _ _) (Library.nameMu_extends h _ _ _)) fun _ => Le.refl _

theorem detectorIntrinsic_extends {extra : List (Material ℝ)} (h : Extends pf extra L L') (d : Layer ℝ) (e : ℝ) :
    Le (detectorIntrinsic pf fuel L d e) (detectorIntrinsic pf fuel L' d e) := by
  unfold detectorIntrinsic Layer.getTransmission
  exact Outcome.Le.ite (((detectorMu_extends h d e).bind fun _ => Le.refl _).bind fun _ => Le.refl _) (Le.refl _)

theorem detectorComposition_extends {extra : List (Material ℝ)} (h : Extends pf extra L L') (p : Detector.EscapeParams ℝ) :
    Keeps (detectorComposition pf fuel L p) (detectorComposition pf fuel L' p) := by
  unfold detectorComposition
  split
  · exact Library.compMap_extends h.nil fuel _
  · exact Library.comp_extends h fuel _

theorem detectorEscape_extends {extra : List (Material ℝ)} (h : Extends pf extra L L') (ht : EscapeTrue pf fuel L)
    (p : Detector.EscapeParams ℝ) (e : ℝ) : Le (detectorEscape pf fuel L p e) (detectorEscape pf fuel L' p e) := by
  intro v hv
  unfold detectorEscape at hv ⊢
  obtain ⟨m, h1, h2⟩ := Outcome.bind_eq_ok.1 hv
  have hm : m ≠ [] := by
    rintro rfl
    exact Library.getEscape_nil ht rfl e v h2
  rw [detectorComposition_extends h p m hm h1, Outcome.ok_bind]
  exact Library.getEscape_extends h fuel _ e v h2

theorem filterLoop_extends (h : Extends pf c.materials L L') : ∀ (ls : List (Layer ℝ)) (rays : List (ℝ × ℝ)),
    Le (filterLoop pf fuel L c ls rays) (filterLoop pf fuel L' c ls rays)
  | [], _ => Le.refl _
  | l :: ls, rays => by
    unfold filterLoop
    exact (layerTransmissions_extends h l _ _ _).bind fun ts => filterLoop_extends h ls _

theorem compositions_extends (h : Extends pf c.materials L L') : ∀ (ls : List (Layer ℝ)) (ms : List (SMap String ℝ)),
    (∀ l ∈ ls, layerComposition pf fuel L c l ≠ .ok []) → compositions pf fuel L c ls = .ok ms →
      compositions pf fuel L' c ls = .ok ms ∧ ∀ m ∈ ms, m ≠ []
  | [], ms, _, hx => by
    cases hx
    exact ⟨rfl, by simp⟩
  | l :: ls, ms, hk, hx => by
    unfold compositions at hx ⊢
    obtain ⟨m, h1, h2⟩ := Outcome.bind_eq_ok.1 hx
    obtain ⟨r, h3, h4⟩ := Outcome.bind_eq_ok.1 h2
    have hm : m ≠ [] := by
      rintro rfl
      exact hk l (by simp) h1
    obtain ⟨h5, h6⟩ := compositions_extends h ls r (fun x hx => hk x (by simp [hx])) h3
    rw [layerComposition_extends h l m hm h1, Outcome.ok_bind, h5, Outcome.ok_bind]
    cases h4
    refine ⟨rfl, ?_⟩
    intro x hx
    rcases List.mem_cons.1 hx with rfl | hx
    · exact hm
    · exact h6 x hx

theorem upperLoop_extends {env env' : Env ℝ} (h : ∀ j e, Le (env.transmission j e) (env'.transmission j e)) (e : ℝ) :
    ∀ (n : Nat) (d : ℝ), Le (upperLoop env e n d) (upperLoop env' e n d)
  | 0, _ => Le.refl _
  | n + 1, d => by
    unfold upperLoop
    exact (h n e).bind fun t => upperLoop_extends h e n _

theorem attenuatorLoop_extends {f g : Layer ℝ → ℝ → Outcome ℝ} (h : ∀ l e, Le (f l e) (g l e)) (e : ℝ) :
    ∀ (ls : List (Layer ℝ)) (d : ℝ), Le (attenuatorLoop e (ls.map f) d) (attenuatorLoop e (ls.map g) d)
  | [], _ => Le.refl _
  | l :: ls, d => by
    simp only [List.map_cons]
    unfold attenuatorLoop
    exact (h l e).bind fun t => attenuatorLoop_extends h e ls _

variable {srt : List (String × ℝ) → List (String × ℝ)} {o : Options ℝ} {g : Bool} {b : Beam ℝ} {reqs : List (Outcome Request)}

theorem fluorescence_extends (h : Extends pf c.materials L L') (ht : EscapeTrue pf fuel L)
    (hk : ∀ l ∈ c.sample, layerComposition pf fuel L c l ≠ .ok []) :
    Le (fluorescence pf fuel L srt c o g b reqs) (fluorescence pf fuel L' srt c o g b reqs) := by
  intro v hv
  unfold fluorescence at hv ⊢
  obtain ⟨comps, h1, h2⟩ := Outcome.bind_eq_ok.1 hv
  obtain ⟨h3, h4⟩ := compositions_extends h _ _ hk h1
  rw [h3, Outcome.ok_bind]
  refine Outcome.Le.bind (filterLoop_extends h _ _) (fun rays => ?_) v h2
  dsimp only
  refine Outcome.Le.bind (Le.refl _) fun geoms => ?_
  apply calculate_le
  exact {
    layers := rfl, sinIn := rfl, sinOut := rfl, exp := rfl
    mu := fun i e => Outcome.Le.bind (Le.refl _) fun l => Outcome.Le.bind (Le.refl _) fun m =>
      (layerMu_extends h l e m).bind fun _ => Le.refl _
    mus := fun i es => Outcome.Le.bind (Le.refl _) fun l => Outcome.Le.bind (Le.refl _) fun m => layerMus_extends h l es m
    families := by
      intro i e w hw
      obtain ⟨l, h5, h6⟩ := Outcome.bind_eq_ok.1 hw
      obtain ⟨m, h7, h8⟩ := Outcome.bind_eq_ok.1 h6
      have hm : m ≠ [] := by
        unfold vget at h7
        cases hx : comps[i]? with
        | none => rw [hx] at h7; cases h7
        | some y =>
          rw [hx] at h7
          cases h7
          exact h4 _ (List.mem_of_getElem? hx)
      show (vget c.sample i >>= _) = _
      rw [h5, Outcome.ok_bind, h7, Outcome.ok_bind]
      unfold layerFamilies at h8 ⊢
      have hl : m.length > 0 := List.length_pos_iff.2 hm
      rw [if_pos hl] at h8 ⊢
      exact Library.peakFamilies_extends h srt _ e w h8
    excite := fun s e w => (Library.getElement_extends h s).bind fun _ => Le.refl _
    threshold := fun s f => (Library.getElement_extends h s).bind fun _ => Le.refl _
    hasDetector := rfl
    escape := fun e => detectorEscape_extends h ht _ e
    l0 := fun _ _ _ _ _ => Le.refl _
    x := fun _ _ _ _ _ _ _ => Le.refl _
    efficiency := by
      intro i q e
      unfold efficiency
      refine Outcome.Le.bind (upperLoop_extends (fun j e => Outcome.Le.bind (Le.refl _) fun l => Outcome.Le.bind (Le.refl _) fun m =>
        layerTransmission_extends h l e _ m) e i 1) fun d1 => ?_
      refine Outcome.Le.bind (attenuatorLoop_extends (fun l e => layerTransmission_extends h l e 90 []) e _ d1) fun d2 => ?_
      dsimp only
      refine Outcome.Le.ite ?_ (Le.refl _)
      exact (detectorIntrinsic_extends h _ e).bind fun _ => (detectorEscape_extends h ht _ e).bind fun _ => Le.refl _ }

/-- **C161** (calculations) A material added to the library under a name that no material has does not change the result of a calculation.
The composition of each layer of the sample must have been found (a layer of unknown composition contributes nothing, and would get
a meaning), and the escape peaks kept in the library, if any, must be those that would be computed. -/
theorem C161_material (m : Material ℝ) (flag : Bool) (hnew : m.name ∉ L.getMaterialNames) (ht : EscapeTrue pf fuel L)
    (hk : ∀ l ∈ c.sample, layerComposition pf fuel L c l ≠ .ok []) (r : Result ℝ)
    (hr : fluorescence pf fuel L srt c o g b reqs = .ok r) :
    (L.addMaterialObject m flag).1 = .ok () ∧ fluorescence pf fuel (L.addMaterialObject m flag).2 srt c o g b reqs = .ok r := by
  obtain ⟨h1, h2⟩ := Library.extends_material L pf c.materials m flag hnew
  exact ⟨h1, fluorescence_extends h2 ht hk r hr⟩

/-- **C161** (calculations) The same for an element added under a name that no element has, that meant nothing before, and that does not
occur in the name of a material read as a formula. -/
theorem C161_element_partial (hinv : Library.Inv L) (e : LibElement ℝ) (hnew : e.name ∉ L.getElementNames)
    (hname : ∀ fuel c, L.comp pf fuel e.name = .ok c → c = [])
    (hmat : ∀ n f, (n ∈ L.getMaterialNames ∨ ∃ m ∈ c.materials, m.name = n) → pf n = .ok f → e.name ∉ f.map Prod.fst)
    (ht : EscapeTrue pf fuel L) (hk : ∀ l ∈ c.sample, layerComposition pf fuel L c l ≠ .ok []) (r : Result ℝ)
    (hr : fluorescence pf fuel L srt c o g b reqs = .ok r) :
    (L.addElement e).1 = .ok () ∧ fluorescence pf fuel (L.addElement e).2 srt c o g b reqs = .ok r := by
  obtain ⟨h1, h2⟩ := Library.extends_element L hinv pf c.materials e hnew hname hmat
  exact ⟨h1, fluorescence_extends h2 ht hk r hr⟩

/-- A calculation for a layer of iron is not changed when nickel is added to the library. -/
example (fuel : Nat) (d : Element ℝ) (limit : ℝ) (hs : Library.SortsByEnergy srt) :
    ∃ r l, fluorescence feParser (fuel + 1) feLibrary srt (feStack [] [Layer.new "Fe" 8 1 1] []) ⟨0, true, limit⟩ false Beam.new
        [.ok ⟨"Fe", "K", -1⟩] = .ok r ∧ leaf? r "Fe K" 0 "KL3".toList = some l ∧
      fluorescence feParser (fuel + 1) (feLibrary.addElement ⟨"Ni", 58, d⟩).2 srt (feStack [] [Layer.new "Fe" 8 1 1] []) ⟨0, true, limit⟩
        false Beam.new [.ok ⟨"Fe", "K", -1⟩] = .ok r := by
  obtain ⟨r, hr⟩ := feStack_returns fuel hs limit Beam.new [] [Layer.new "Fe" 8 1 1] [] (by simp [Layer.new])
  obtain ⟨l, hl⟩ := feStack_line fuel hr
  refine ⟨r, l, hr, hl, (C161_element_partial feInv ⟨"Ni", 58, d⟩ ?_ ?_ ?_ ?_ ?_ r hr).2⟩
  · simp [Library.getElementNames, feLibrary]
  · intro n c hc
    cases n with
    | zero => simp [Library.comp] at hc
    | succ n =>
      unfold Library.comp Library.formula feParser at hc
      rw [if_neg (show ¬ "Ni" = "Fe" by decide), Outcome.ok_bind] at hc
      simp [Library.masses, Library.lookup, feLibrary] at hc
      simpa using hc
  · rintro n f (hn | ⟨m, hm, -⟩) -
    · simp [Library.getMaterialNames, feLibrary] at hn
    · simp [feStack, feConfig, Config.new] at hm
  · exact Library.escapeTrue_empty _ _ _ rfl
  · intro l hl
    have hl : l = Layer.new "Fe" 8 1 1 := by simpa [feStack] using hl
    subst hl
    rw [feComposition' fuel _ rfl _ rfl rfl]
    simp

end Multilayer
end Fisx
