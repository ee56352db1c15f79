import Verif.LibraryMix

/-!
# Peak families: C32
-/

set_option linter.unusedSectionVars false

namespace Fisx

variable {K : Type} [Field K] [LinearOrder K] [IsStrictOrderedRing K] [Trans K] [Trig K]

namespace Element

/-! ### The binding energies are a map -/

theorem bindingLoop_sorted (l : List (Str × K)) (b : SMap Str K) (sh : SMap Str (Shell K)) (h : b.Sorted) :
    (bindingLoop l b sh).2.1.Sorted := by
  induction l generalizing b sh with
  | nil => exact h
  | cons e l ih =>
    obtain ⟨k, v⟩ := e
    unfold bindingLoop
    have hb : (b.insert k v).Sorted := SMap.insert_sorted h _ _
    dsimp only
    split
    · split
      · exact ih _ _ hb
      · split
        · exact ih _ _ hb
        all_goals exact hb
    · exact ih _ _ hb

theorem step_binding_sorted (e : Element K) (op : Op K) (h : e.binding.Sorted) : (e.step op).2.binding.Sorted := by
  cases op with
  | setAtomicNumber z => simp only [step, setAtomicNumber]; split <;> exact h
  | setBindingEnergies b => exact bindingLoop_sorted b [] [] SMap.sorted_nil
  | setMass en ph co cm pa =>
    simp only [step, setMassAttenuationCoefficients]
    repeat' split
    all_goals exact h
  | setPartial s en v =>
    simp only [step, setPartial]
    split
    · exact h
    split
    · exact h
    split
    · exact h
    split
    · show SMap.Sorted (if _ then _ else _)
      split
      · exact SMap.insert_sorted h _ _
      · exact h
    · exact h
  | setRadiative s l v =>
    simp only [step, setRadiative]
    split <;> exact h
  | setRadiativeMap s m =>
    simp only [step, setRadiativeMap]
    repeat' split
    all_goals exact h
  | setNonradiative s l v =>
    simp only [step, setNonradiative]
    repeat' split
    all_goals exact h
  | setNonradiativeMap s m =>
    simp only [step, setNonradiativeMap, setNonradiative]
    repeat' split
    all_goals exact h
  | setShellConstants s c =>
    simp only [step, setShellConstants]
    repeat' split
    all_goals exact h
  | setCascadeCacheEnabled f =>
    simp only [step, setCascadeCacheEnabled, fillCascadeCache]
    repeat' split
    all_goals exact h
  | fillCascadeCache =>
    simp only [step, fillCascadeCache]
    split <;> exact h
  | emptyCascadeCache => exact h
  | setCacheEnabled f => exact h
  | clearCache => exact h
  | fillCache l =>
    simp only [step, fillCache]
    exact fillLoop_induct (fun e => e.binding.Sorted) (fun e x m hp _ => hp) (fun e x f hp hm _ => hp) _ _ h
  | updateCache l =>
    simp only [step, updateCache]
    exact updateLoop_induct (fun e => e.binding.Sorted) (fun e x m hp _ _ => hp) (fun e x f hp hm _ => hp) _ _ h

/-- An element as a program can make it: built by its constructor, then any calls. -/
def Made (e : Element K) : Prop := ∃ z e0 ops, mk? z = .ok e0 ∧ e = run e0 ops

theorem made_binding_sorted (e : Element K) (h : Made e) : e.binding.Sorted := by
  obtain ⟨z, e0, ops, h0, rfl⟩ := h
  have hs : e0.binding.Sorted := by
    unfold mk? at h0
    split at h0
    · cases h0
    · injection h0 with h0
      subst h0
      exact SMap.sorted_nil
  clear h0
  induction ops generalizing e0 with
  | nil => exact hs
  | cons op ops ih => exact ih (e0.step op).2 (step_binding_sorted e0 op hs)

theorem made_step (e : Element K) (op : Op K) (h : Made e) : Made (e.step op).2 := by
  obtain ⟨z, e0, ops, h0, rfl⟩ := h
  refine ⟨z, e0, ops ++ [op], h0, ?_⟩
  unfold run
  rw [List.foldl_append]
  rfl

end Element

namespace Library

open Outcome

theorem forall₂_right {α β : Type} {R : α → β → Prop} {l : List α} {m : List β} (h : List.Forall₂ R l m) :
    ∀ b ∈ m, ∃ a ∈ l, R a b := by
  induction h with
  | nil => simp
  | cons h _ ih =>
    intro b hb
    rcases List.mem_cons.1 hb with rfl | hb
    · exact ⟨_, by simp, h⟩
    · obtain ⟨a, ha, hab⟩ := ih b hb
      exact ⟨a, List.mem_cons_of_mem _ ha, hab⟩

theorem forall₂_left {α β : Type} {R : α → β → Prop} {l : List α} {m : List β} (h : List.Forall₂ R l m) :
    ∀ a ∈ l, ∃ b ∈ m, R a b := by
  induction h with
  | nil => simp
  | cons h _ ih =>
    intro b hb
    rcases List.mem_cons.1 hb with rfl | hb
    · exact ⟨_, by simp, h⟩
    · obtain ⟨a, ha, hab⟩ := ih b hb
      exact ⟨a, List.mem_cons_of_mem _ ha, hab⟩

/-! ### The elements of the library -/

/-- The elements handed over by the history are made by the program. -/
def ElementsMade (ops : List (Op K)) : Prop := ∀ e, Op.addElement e ∈ ops → Element.Made e.data

theorem elements_run (P : Element K → Prop) (hP : ∀ e op, P e → P (e.step op).2)
    (pf : String → Outcome (SMap String K)) (fuel : Nat) (on : Bool) (key : EscapeKey K)
    (ops : List (Op K)) (h : ∀ e, Op.addElement e ∈ ops → P e.data) :
    ∀ e ∈ (run pf fuel (empty on key) ops).elements, P e.data := by
  induction ops using List.reverseRecOn with
  | nil => intro e he; simp [run, empty] at he
  | append_singleton ops o ih =>
    rw [run_snoc]
    have ih := ih (fun e he => h e (by simp [he]))
    generalize run pf fuel (empty on key) ops = L at *
    by_cases h1 : ∃ e, o = .addElement e
    · obtain ⟨e, rfl⟩ := h1
      have hP0 : P e.data := h e (by simp)
      intro e' he'
      simp only [step, addElement] at he'
      split at he'
      · split at he'
        · rcases List.mem_or_eq_of_mem_set he' with he' | rfl
          · exact ih e' he'
          · exact hP0
        · exact ih e' he'
      · rcases List.mem_append.1 he' with he' | he'
        · exact ih e' he'
        · rw [List.mem_singleton.1 he']; exact hP0
    · by_cases h2 : ∃ n op, o = .onElement n op
      · obtain ⟨n, op, rfl⟩ := h2
        intro e' he'
        simp only [step, onElement] at he'
        split at he'
        · split at he'
          · split at he'
            · rename_i e hel
              rcases List.mem_or_eq_of_mem_set he' with he' | rfl
              · exact ih e' he'
              · exact hP _ op (ih e (List.mem_of_getElem? hel))
            · exact ih e' he'
          · exact ih e' he'
        · exact ih e' he'
      · have := step_same pf fuel L o (fun e he => h1 ⟨e, he⟩) (fun n op he => h2 ⟨n, op, he⟩)
        rw [this.2]
        exact ih

theorem getElement_mem (L : Library K) (n : String) (e : LibElement K) (h : L.getElement n = .ok e) : e ∈ L.elements := by
  obtain ⟨i, _, hv⟩ := getElement_dict L n e h
  unfold vget at hv
  split at hv
  · rename_i a ha
    injection hv with hv
    subst hv
    exact List.mem_of_getElem? ha
  · cases hv

theorem getElement_name (L : Library K) (hinv : Inv L) (n : String) (e : LibElement K) (h : L.getElement n = .ok e) :
    e.name = n := by
  obtain ⟨i, hi, hv⟩ := getElement_dict L n e h
  have h1 := (hinv n i).1 hi
  unfold vget at hv
  split at hv
  · rename_i a ha
    injection hv with hv
    subst hv
    unfold getElementNames at h1
    rw [List.getElem?_map, ha] at h1
    simpa using h1
  · cases hv

/-! ### C32: specification -/

/-- K, L and M shells. -/
def Main (s : Str) : Prop := s.take 1 = ['K'] ∨ s.take 1 = ['L'] ∨ s.take 1 = ['M']

/-- The shell `s` of the element is a family excited at the energy `x`: its binding energy `b` is positive and below the
energy, it is a K, L or M shell and it has a positive fluorescence yield. -/
def Family (e : Element K) (x : K) (s : Str) (b : K) : Prop :=
  e.binding.find? s = some b ∧ 0 < b ∧ b < x ∧ Main s
    ∧ ∃ sh, e.shells.find? s = some sh ∧ 0 < Element.at0 sh.constants "omega".toList

/-- Correct sorting by energy: nothing is lost or added, and the energies ascend. -/
def SortsByEnergy (srt : List (String × K) → List (String × K)) : Prop :=
  ∀ l, (srt l).Perm l ∧ (srt l).Pairwise (fun a b => a.2 ≤ b.2)

/-! ### C32: proof -/

/-- The fluorescence yield of a shell is positive. -/
def yields (e : Element K) (s : Str) : Bool :=
  match e.shells.find? s with
  | some sh => decide (0 < Element.at0 sh.constants "omega".toList)
  | none => false

/-- The families of a list of shells with their energies. -/
def familyList (e : LibElement K) (l : List (Str × K)) : List (String × K) :=
  (l.filter (fun p => (decide (p.1.take 1 = ['K'] ∨ p.1.take 1 = ['L'] ∨ p.1.take 1 = ['M'])) && yields e.data p.1)).map
    (fun p => (e.name ++ " " ++ String.ofList p.1, p.2))

theorem familiesOf_ok (e : LibElement K) (l : List (Str × K)) (hl : ∀ p ∈ l, e.data.binding.find? p.1 = some p.2)
    (r : List (String × K)) (h : familiesOf e (l.map Prod.fst) = .ok r) :
    r = familyList e l ∧ ∀ p ∈ l, Main p.1 → ∃ sh, e.data.shells.find? p.1 = some sh := by
  induction l generalizing r with
  | nil =>
    injection h with h
    subst h
    exact ⟨rfl, by simp⟩
  | cons p l ih =>
    obtain ⟨s, b⟩ := p
    have hb := hl (s, b) (by simp)
    have hl' := fun q hq => hl q (List.mem_cons_of_mem _ hq)
    rw [List.map_cons] at h
    unfold familiesOf at h
    dsimp only at h hb
    by_cases hk : s.take 1 = ['K'] ∨ s.take 1 = ['L'] ∨ s.take 1 = ['M']
    · rw [if_pos hk] at h
      cases hs : e.data.shells.find? s with
      | none => rw [hs] at h; cases h
      | some sh =>
        rw [hs] at h
        dsimp only at h
        obtain ⟨r', hr', h⟩ := bind_eq_ok.1 h
        obtain ⟨h1, h2⟩ := ih hl' r' hr'
        constructor
        · by_cases ho : Element.at0 sh.constants "omega".toList > 0
          · rw [if_pos ho, hb] at h
            injection h with h
            rw [← h, h1]
            unfold familyList
            rw [List.filter_cons_of_pos (by
              simp only [Bool.and_eq_true, decide_eq_true_eq]
              refine ⟨hk, ?_⟩
              unfold yields
              rw [hs]
              exact decide_eq_true ho)]
            rfl
          · rw [if_neg ho] at h
            injection h with h
            rw [← h, h1]
            unfold familyList
            rw [List.filter_cons_of_neg]
            simp only [Bool.and_eq_true, decide_eq_true_eq, not_and]
            intro _
            unfold yields
            rw [hs]
            simpa using ho
        · intro q hq hm
          rcases List.mem_cons.1 hq with rfl | hq
          · exact ⟨sh, hs⟩
          · exact h2 q hq hm
    · rw [if_neg hk] at h
      obtain ⟨h1, h2⟩ := ih hl' r h
      constructor
      · rw [h1]
        unfold familyList
        rw [List.filter_cons_of_neg]
        simp only [Bool.and_eq_true, decide_eq_true_eq, not_and]
        intro h0
        exact absurd h0 hk
      · intro q hq hm
        rcases List.mem_cons.1 hq with rfl | hq
        · exact absurd hm hk
        · exact h2 q hq hm

theorem familiesOf_of (e : LibElement K) (l : List (Str × K)) (hl : ∀ p ∈ l, e.data.binding.find? p.1 = some p.2)
    (hs : ∀ p ∈ l, Main p.1 → ∃ sh, e.data.shells.find? p.1 = some sh) :
    ∃ r, familiesOf e (l.map Prod.fst) = .ok r := by
  induction l with
  | nil => exact ⟨_, rfl⟩
  | cons p l ih =>
    obtain ⟨s, b⟩ := p
    have hb := hl (s, b) (by simp)
    obtain ⟨r, hr⟩ := ih (fun q hq => hl q (List.mem_cons_of_mem _ hq)) (fun q hq => hs q (List.mem_cons_of_mem _ hq))
    rw [List.map_cons]
    unfold familiesOf
    dsimp only at hb ⊢
    by_cases hk : s.take 1 = ['K'] ∨ s.take 1 = ['L'] ∨ s.take 1 = ['M']
    · rw [if_pos hk]
      obtain ⟨sh, hsh⟩ := hs (s, b) (by simp) hk
      dsimp only at hsh
      rw [hsh, hr]
      dsimp only
      rw [ok_bind]
      split
      · rw [hb]; exact ⟨_, rfl⟩
      · exact ⟨_, rfl⟩
    · rw [if_neg hk]
      exact ⟨r, hr⟩

/-- The shells excited at an energy, with their binding energies. -/
def excited (e : LibElement K) (x : K) : List (Str × K) :=
  e.data.binding.filter (fun b => decide (b.2 > 0 ∧ x > b.2))

theorem excited_find (e : LibElement K) (hs : e.data.binding.Sorted) (x : K) :
    ∀ p ∈ excited e x, e.data.binding.find? p.1 = some p.2 := by
  intro p hp
  exact SMap.find?_of_mem hs (List.mem_filter.1 hp).1

theorem familyList_iff (e : LibElement K) (hs : e.data.binding.Sorted) (x : K) (p : String × K) :
    p ∈ familyList e (excited e x) ↔
      ∃ s, p.1 = e.name ++ " " ++ String.ofList s ∧ Family e.data x s p.2 := by
  unfold familyList
  rw [List.mem_map]
  constructor
  · rintro ⟨q, hq, rfl⟩
    obtain ⟨hq, hc⟩ := List.mem_filter.1 hq
    simp only [Bool.and_eq_true, decide_eq_true_eq] at hc
    have hf := excited_find e hs x q hq
    have hx := (List.mem_filter.1 hq).2
    simp only [decide_eq_true_eq] at hx
    refine ⟨q.1, rfl, hf, hx.1, hx.2, hc.1, ?_⟩
    have hy := hc.2
    unfold yields at hy
    split at hy
    · rename_i sh hsh
      exact ⟨sh, hsh, of_decide_eq_true hy⟩
    · cases hy
  · rintro ⟨s, hp, h1, h2, h3, h4, sh, h5, h6⟩
    refine ⟨(s, p.2), List.mem_filter.2 ⟨List.mem_filter.2 ⟨SMap.mem_of_find? h1, ?_⟩, ?_⟩, ?_⟩
    · exact decide_eq_true ⟨h2, h3⟩
    · simp only [Bool.and_eq_true, decide_eq_true_eq]
      refine ⟨h4, ?_⟩
      unfold yields
      rw [h5]
      exact decide_eq_true h6
    · rw [← hp]

theorem familiesLoop_ok (L : Library K) (names : List String) (x : K)
    (hsorted : ∀ e ∈ L.elements, e.data.binding.Sorted) (r : List (String × K))
    (h : familiesLoop L names x = .ok r) :
    ∃ es : List (LibElement K), List.Forall₂ (fun n e => L.getElement n = .ok e) names es
      ∧ r = es.flatMap (fun e => familyList e (excited e x)) := by
  induction names generalizing r with
  | nil =>
    injection h with h
    exact ⟨[], List.Forall₂.nil, h.symm⟩
  | cons n names ih =>
    unfold familiesLoop at h
    obtain ⟨e, he, h⟩ := bind_eq_ok.1 h
    obtain ⟨f, hf, h⟩ := bind_eq_ok.1 h
    obtain ⟨r', hr', h⟩ := bind_eq_ok.1 h
    injection h with hfin
    obtain ⟨es, h1, h2⟩ := ih r' hr'
    have hs := hsorted e (getElement_mem L n e he)
    have := (familiesOf_ok e (excited e x) (excited_find e hs x) f hf).1
    exact ⟨e :: es, List.Forall₂.cons he h1, by rw [← hfin, this, h2]; rfl⟩

/-- C32: the result consists of the excited K, L and M shells with a positive fluorescence yield of the elements asked
for, in ascending order of their binding energies. -/
theorem C32_families (pf : String → Outcome (SMap String K)) (fuel : Nat) (on : Bool) (key : EscapeKey K)
    (ops : List (Op K)) (hmade : ElementsMade ops) (srt : List (String × K) → List (String × K))
    (hsrt : SortsByEnergy srt) (names : List String) (x : K) (r : List (String × K))
    (h : (run pf fuel (empty on key) ops).peakFamilies srt names x = .ok r) :
    r.Pairwise (fun a b => a.2 ≤ b.2) ∧
    ∀ fam b, (fam, b) ∈ r ↔ ∃ n ∈ names, ∃ e, (run pf fuel (empty on key) ops).getElement n = .ok e
      ∧ ∃ s, fam = n ++ " " ++ String.ofList s ∧ Family e.data x s b := by
  have hinv := inv_run pf fuel on key ops
  have hsorted := elements_run (fun e : Element K => e.binding.Sorted) (fun e op h => Element.step_binding_sorted e op h)
    pf fuel on key ops (fun e he => Element.made_binding_sorted _ (hmade e he))
  generalize run pf fuel (empty on key) ops = L at *
  unfold peakFamilies at h
  obtain ⟨l, hl, h⟩ := bind_eq_ok.1 h
  injection h with hfin
  subst hfin
  refine ⟨(hsrt l).2, ?_⟩
  intro fam b
  rw [(hsrt l).1.mem_iff]
  obtain ⟨es, h1, rfl⟩ := familiesLoop_ok L names x hsorted l hl
  rw [List.mem_flatMap]
  constructor
  · rintro ⟨e, he, hp⟩
    obtain ⟨n, hn, hne⟩ := forall₂_right h1 e he
    have hs := hsorted e (getElement_mem L n e hne)
    obtain ⟨s, hp, hf⟩ := (familyList_iff e hs x _).1 hp
    refine ⟨n, hn, e, hne, s, ?_, hf⟩
    rw [← getElement_name L hinv n e hne]
    exact hp
  · rintro ⟨n, hn, e, hne, s, hp, hf⟩
    obtain ⟨e', he', hne'⟩ := forall₂_left h1 n hn
    rw [hne] at hne'
    injection hne' with hne'
    subst hne'
    have hs := hsorted e (getElement_mem L n e hne)
    refine ⟨e, he', (familyList_iff e hs x _).2 ⟨s, ?_, hf⟩⟩
    rw [getElement_name L hinv n e hne]
    exact hp

theorem family_name_inj {n n' : String} {s s' : Str} (hn : ' ' ∉ n.toList) (hn' : ' ' ∉ n'.toList)
    (h : n ++ " " ++ String.ofList s = n' ++ " " ++ String.ofList s') : n = n' ∧ s = s' := by
  have h1 : n.toList ++ ' ' :: s = n'.toList ++ ' ' :: s' := by
    have := congrArg String.toList h
    simpa [String.toList_append] using this
  have tw : ∀ (l t : List Char), ' ' ∉ l → (l ++ ' ' :: t).takeWhile (fun c => c ≠ ' ') = l := by
    intro l t hl
    induction l with
    | nil => simp
    | cons c l ih =>
      have hc : c ≠ ' ' := fun h => hl (by simp [h])
      rw [List.cons_append, List.takeWhile_cons_of_pos (by simpa using hc), ih (fun h => hl (List.mem_cons_of_mem _ h))]
  have h2 : n.toList = n'.toList := by
    rw [← tw n.toList s hn, h1, tw n'.toList s' hn']
  refine ⟨String.toList_injective h2, ?_⟩
  rw [h2] at h1
  simpa using h1

/-- C32: each family once, when no element is asked for twice (element names have no blanks). -/
theorem C32_once (pf : String → Outcome (SMap String K)) (fuel : Nat) (on : Bool) (key : EscapeKey K)
    (ops : List (Op K)) (hmade : ElementsMade ops) (srt : List (String × K) → List (String × K))
    (hsrt : SortsByEnergy srt) (names : List String) (hnd : names.Nodup) (hsp : ∀ n ∈ names, ' ' ∉ n.toList) (x : K)
    (r : List (String × K)) (h : (run pf fuel (empty on key) ops).peakFamilies srt names x = .ok r) :
    (r.map Prod.fst).Nodup := by
  have hinv := inv_run pf fuel on key ops
  have hsorted := elements_run (fun e : Element K => e.binding.Sorted) (fun e op h => Element.step_binding_sorted e op h)
    pf fuel on key ops (fun e he => Element.made_binding_sorted _ (hmade e he))
  generalize run pf fuel (empty on key) ops = L at *
  unfold peakFamilies at h
  obtain ⟨l, hl, hfin⟩ := bind_eq_ok.1 h
  clear h
  injection hfin with hfin
  subst hfin
  rw [((hsrt l).1.map Prod.fst).nodup_iff]
  clear hsrt
  induction names generalizing l with
  | nil =>
    injection hl with hl
    subst hl
    simp
  | cons n names ih =>
    unfold familiesLoop at hl
    obtain ⟨e, he, hl⟩ := bind_eq_ok.1 hl
    obtain ⟨f, hf, hl⟩ := bind_eq_ok.1 hl
    obtain ⟨r', hr', hl⟩ := bind_eq_ok.1 hl
    injection hl with hfin
    subst hfin
    have hs := hsorted e (getElement_mem L n e he)
    have hen := getElement_name L hinv n e he
    have hfe := (familiesOf_ok e (excited e x) (excited_find e hs x) f hf).1
    have hnsp := hsp n (by simp)
    rw [List.map_append, List.nodup_append]
    refine ⟨?_, ih (List.nodup_cons.1 hnd).2 (fun m hm => hsp m (List.mem_cons_of_mem _ hm)) r' hr', ?_⟩
    · rw [hfe]
      unfold familyList
      rw [List.map_map]
      have hb : ((excited e x).map Prod.fst).Nodup := by
        unfold excited
        exact SMap.keys_nodup (SMap.sorted_filter hs _)
      have hb2 : (((excited e x).filter (fun p => (decide (p.1.take 1 = ['K'] ∨ p.1.take 1 = ['L'] ∨ p.1.take 1 = ['M']))
          && yields e.data p.1)).map Prod.fst).Nodup := List.Nodup.sublist (List.Sublist.map _ List.filter_sublist) hb
      have : ((excited e x).filter (fun p => (decide (p.1.take 1 = ['K'] ∨ p.1.take 1 = ['L'] ∨ p.1.take 1 = ['M']))
          && yields e.data p.1)).map (Prod.fst ∘ fun p => (e.name ++ " " ++ String.ofList p.1, p.2))
          = (((excited e x).filter (fun p => (decide (p.1.take 1 = ['K'] ∨ p.1.take 1 = ['L'] ∨ p.1.take 1 = ['M']))
          && yields e.data p.1)).map Prod.fst).map (fun s => e.name ++ " " ++ String.ofList s) := by
        rw [List.map_map]; rfl
      rw [this]
      refine List.Nodup.map ?_ hb2
      intro s s' hss
      rw [hen] at hss
      exact (family_name_inj hnsp hnsp hss).2
    · intro a ha b hb hab
      subst hab
      obtain ⟨p, hp, rfl⟩ := List.mem_map.1 ha
      obtain ⟨q, hq, hqp⟩ := List.mem_map.1 hb
      rw [hfe] at hp
      obtain ⟨s, hps, _⟩ := (familyList_iff e hs x p).1 hp
      obtain ⟨es, h1, rfl⟩ := familiesLoop_ok L names x hsorted r' hr'
      obtain ⟨e', he', hq⟩ := List.mem_flatMap.1 hq
      obtain ⟨n', hn', hne'⟩ := forall₂_right h1 e' he'
      have hs' := hsorted e' (getElement_mem L n' e' hne')
      obtain ⟨s', hqs, _⟩ := (familyList_iff e' hs' x q).1 hq
      rw [hps, hqs, hen, getElement_name L hinv n' e' hne'] at hqp
      have := (family_name_inj (hsp n' (List.mem_cons_of_mem _ hn')) hnsp hqp).1
      rw [this] at hn'
      exact (List.nodup_cons.1 hnd).1 hn'

/-- C32: the call returns for known elements whose K, L and M shells with a binding energy have their data. -/
theorem C32_defined (pf : String → Outcome (SMap String K)) (fuel : Nat) (on : Bool) (key : EscapeKey K)
    (ops : List (Op K)) (hmade : ElementsMade ops) (srt : List (String × K) → List (String × K))
    (names : List String) (x : K)
    (hn : ∀ n ∈ names, ∃ e, (run pf fuel (empty on key) ops).getElement n = .ok e
      ∧ ∀ s b, e.data.binding.find? s = some b → 0 < b → Main s → ∃ sh, e.data.shells.find? s = some sh) :
    ∃ r, (run pf fuel (empty on key) ops).peakFamilies srt names x = .ok r := by
  have hsorted := elements_run (fun e : Element K => e.binding.Sorted) (fun e op h => Element.step_binding_sorted e op h)
    pf fuel on key ops (fun e he => Element.made_binding_sorted _ (hmade e he))
  generalize run pf fuel (empty on key) ops = L at *
  have : ∃ l, familiesLoop L names x = .ok l := by
    induction names with
    | nil => exact ⟨_, rfl⟩
    | cons n names ih =>
      obtain ⟨l, hl⟩ := ih (fun m hm => hn m (List.mem_cons_of_mem _ hm))
      obtain ⟨e, he, hsh⟩ := hn n (by simp)
      have hs := hsorted e (getElement_mem L n e he)
      obtain ⟨f, hf⟩ := familiesOf_of e (excited e x) (excited_find e hs x) (by
        intro p hp hm
        have hx := (List.mem_filter.1 hp).2
        simp only [decide_eq_true_eq] at hx
        exact hsh p.1 p.2 (excited_find e hs x p hp) hx.1 hm)
      have hf' : familiesOf e (e.data.getExcitedShells x) = .ok f := hf
      unfold familiesLoop
      rw [he, ok_bind, hf', ok_bind, hl, ok_bind]
      exact ⟨_, rfl⟩
  obtain ⟨l, hl⟩ := this
  unfold peakFamilies
  rw [hl]
  exact ⟨_, rfl⟩

/-- C32: an element that is not known is an exception. -/
theorem C32_unknown (srt : List (String × K) → List (String × K)) (L : Library K) (names : List String) (x : K)
    (n : String) (hn : n ∈ names) (hx : L.getElement n = .throw .invalidArgument) (r : List (String × K)) :
    L.peakFamilies srt names x ≠ .ok r := by
  intro h
  unfold peakFamilies at h
  obtain ⟨l, hl, hfin⟩ := bind_eq_ok.1 h
  clear h hfin
  induction names generalizing l with
  | nil => simp at hn
  | cons m names ih =>
    unfold familiesLoop at hl
    obtain ⟨e, he, hl⟩ := bind_eq_ok.1 hl
    obtain ⟨f, hf, hl⟩ := bind_eq_ok.1 hl
    obtain ⟨r', hr', hl⟩ := bind_eq_ok.1 hl
    rcases List.mem_cons.1 hn with rfl | hn
    · rw [hx] at he; cases he
    · exact ih hn r' hr'

/-- C32: asked by name, the families are those of the elements of the composition. -/
theorem C32_by_name (pf : String → Outcome (SMap String K)) (srt : List (String × K) → List (String × K)) (L : Library K)
    (d : Nat) (name : String) (x : K) (c : SMap String K) (hc : L.comp pf d name = .ok c) (hne : c ≠ []) :
    L.peakFamiliesOf pf srt d name x = L.peakFamilies srt (c.map Prod.fst) x := by
  unfold peakFamiliesOf
  rw [hc, ok_bind, if_neg (by
    intro hl
    exact hne (List.length_eq_zero_iff.1 (Nat.lt_one_iff.1 hl)))]
  rfl

section examples

attribute [local instance] Element.exampleTrans
local instance : Trig ℚ := ⟨fun _ => 1⟩

/-- The sort used in the example. -/
def exampleSort (l : List (String × ℚ)) : List (String × ℚ) := l.insertionSort (fun a b => a.2 ≤ b.2)

theorem exampleSort_ok : SortsByEnergy exampleSort := by
  intro l
  refine ⟨List.perm_insertionSort _ l, ?_⟩
  have : Std.Total (α := String × ℚ) (fun a b => a.2 ≤ b.2) := ⟨fun a b => le_total a.2 b.2⟩
  have : IsTrans (String × ℚ) (fun a b => a.2 ≤ b.2) := ⟨fun a b c h h' => le_trans h h'⟩
  exact List.pairwise_insertionSort _ l

theorem exampleElement_made (n : String) (m c : ℚ) : Element.Made (tableElement n m c).data := by
  refine ⟨26, _, Element.exampleOps ++ (Element.tableOps ++ [.setMass [8, 8] [3, 3] [c, c] [1, 1] []]), rfl, ?_⟩
  unfold tableElement Element.exampleElement Element.run
  simp only [List.foldl_append]

theorem mixOps_made : ElementsMade mixOps := by
  intro e he
  simp only [mixOps, List.mem_cons, List.not_mem_nil, or_false, Op.addElement.injEq, reduceCtorEq] at he
  rcases he with rfl | rfl <;> exact exampleElement_made _ _ _

/-- The families of a compound of iron and oxygen (both with the shells of the example): K and L3 have a yield. -/
example : mixLibrary.peakFamiliesOf examplePf exampleSort 5 "rust" 8
    = .ok [("Fe L3", 7 / 10), ("O L3", 7 / 10), ("Fe K", 7), ("O K", 7)] := by decide +kernel

example : mixLibrary.peakFamilies exampleSort ["Fe", "O"] 7 = .ok [("Fe L3", 7 / 10), ("O L3", 7 / 10)]
    ∧ mixLibrary.peakFamilies exampleSort ["Fe", "Xx"] 7 = .throw .invalidArgument := by decide +kernel

/-- C32 is violated: an element asked for twice has its families twice. -/
theorem C32_repeated_violated :
    mixLibrary.peakFamilies exampleSort ["Fe", "Fe"] 7 = .ok [("Fe L3", 7 / 10), ("Fe L3", 7 / 10)] := by decide +kernel

end examples

end Library
end Fisx
