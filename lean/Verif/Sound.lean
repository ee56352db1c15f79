import Verif.ShellCore
import Verif.InitFiles
import Verif.MultilayerApi

/-!
# A constructed library is sound (property C127)

The theorems on the fluorescence of a sample (C45, C46, C47, C54, C84, C85, C115) ask that the library is sound. The
libraries made by the constructors of `fisx::Elements` are, when the data of their files make sense.
-/

set_option linter.unusedSectionVars false

namespace Fisx
namespace Init

open Loader (Kind State load subshellsOf)

variable {K : Type} [Field K] [LinearOrder K] [IsStrictOrderedRing K]

/-! ## The invariant of a construction -/

/-- Nothing is cached, a shell has the name it is kept under, and its lines come from accepted labels. Only the K, L and
M subshells have lines. -/
structure Made (e : Element K) : Prop where
  cascade : e.cascadeCache = []
  mu : e.muCache = []
  exc : e.excCache = []
  name : ∀ k s, e.shells.find? k = some s → s.name = k
  lines : ∀ k s, e.shells.find? k = some s → ∀ t r, (t, r) ∈ s.fluorescence →
    k ∈ Element.keys ∧ ∃ l, Shell.radiativeKey k l = some t
  core : ∀ k s, e.shells.find? k = some s → Shell.Core s

theorem radiativeLoop_keys (name : Str) : ∀ (labels : List Str) (values : List K) (i : Nat) (m : SMap Str K),
    (∀ t v, (t, v) ∈ m → ∃ l, Shell.radiativeKey name l = some t) →
    ∀ t v, (t, v) ∈ (Shell.radiativeLoop name labels values i m).2 → ∃ l, Shell.radiativeKey name l = some t
  | [], _, _, m, h => h
  | a :: labels, values, i, m, h => by
    unfold Shell.radiativeLoop
    cases hk : Shell.radiativeKey name a with
    | none => exact h
    | some k =>
      dsimp only
      cases hv : vget values i with
      | ok v =>
        dsimp only
        refine radiativeLoop_keys name labels values (i + 1) _ ?_
        intro t w ht
        rcases SMap.mem_insert ht with h1 | h1
        · cases h1; exact ⟨a, hk⟩
        · exact h t w h1
      | throw _ => exact h
      | ub _ => exact h
      | diverge => exact h

theorem ratios_keys (rad : SMap Str K) {t : Str} {r : K} (h : (t, r) ∈ Shell.fluorescenceRatios rad) :
    ∃ v, (t, v) ∈ rad := by
  have key : ∀ (l : List (Str × K)) (q : K) (m : SMap Str K),
      (t, r) ∈ l.foldl (fun (m : SMap Str K) e => if e.2 > 0 ∧ e.1 ≠ Shell.total then m.insert e.1 (e.2 / q) else m) m →
      (t, r) ∈ m ∨ ∃ v, (t, v) ∈ l := by
    intro l q
    induction l with
    | nil => intro m h; exact Or.inl h
    | cons a l ih =>
      intro m h
      rw [List.foldl_cons] at h
      rcases ih _ h with h1 | ⟨v, h1⟩
      · split_ifs at h1
        · rcases SMap.mem_insert h1 with h2 | h2
          · right
            cases h2
            exact ⟨a.2, by simp⟩
          · exact Or.inl h2
        · exact Or.inl h1
      · exact Or.inr ⟨v, by simp [h1]⟩
  rcases key rad _ [] h with h1 | h1
  · cases h1
  · exact h1

/-- A change of one shell. -/
theorem Made.insert {e : Element K} (h : Made e) {sub : Str} {s' : Shell K} (hsub : sub ∈ Element.keys)
    (hn : s'.name = sub) (hl : ∀ t r, (t, r) ∈ s'.fluorescence → ∃ l, Shell.radiativeKey sub l = some t)
    (hcore : Shell.Core s') : Made { e with shells := e.shells.insert sub s' } := by
  refine ⟨h.1, h.2, h.3, ?_, ?_, ?_⟩
  · intro k s hk
    simp only at hk
    rw [SMap.find?_insert] at hk
    split_ifs at hk with hkk
    · cases hk; rw [hn, hkk]
    · exact h.name k s hk
  · intro k s hk t r ht
    simp only at hk
    rw [SMap.find?_insert] at hk
    split_ifs at hk with hkk
    · cases hk; subst hkk; exact ⟨hsub, hl t r ht⟩
    · exact h.lines k s hk t r ht
  · intro k s hk
    simp only at hk
    rw [SMap.find?_insert] at hk
    split_ifs at hk with hkk
    · cases hk; exact hcore
    · exact h.core k s hk

theorem Made.clear {e : Element K} (h : Made e) : Made e.clearCache := ⟨h.1, rfl, rfl, h.4, h.5, h.6⟩

theorem setRadiative_lines {s : Shell K} {k : Str} (hn : s.name = k)
    (h : ∀ t r, (t, r) ∈ s.fluorescence → ∃ l, Shell.radiativeKey k l = some t) (labels : List Str) (values : List K) :
    (s.setRadiative labels values).2.name = k ∧
    ∀ t r, (t, r) ∈ (s.setRadiative labels values).2.fluorescence → ∃ l, Shell.radiativeKey k l = some t := by
  unfold Shell.setRadiative
  have hk := radiativeLoop_keys s.name labels values 0 [] (fun t v ht => by cases ht)
  generalize Shell.radiativeLoop s.name labels values 0 [] = q at hk ⊢
  obtain ⟨o, m⟩ := q
  split
  · rename_i hq
    refine ⟨hn, fun t r ht => ?_⟩
    injection hq with h1 h2
    subst h2
    obtain ⟨v, hv⟩ := ratios_keys _ ht
    rw [← hn]
    exact hk t v hv
  · exact ⟨hn, h⟩

theorem update_lines (s : Shell K) : s.updateNonradiative.name = s.name ∧
    s.updateNonradiative.fluorescence = s.fluorescence := ⟨rfl, rfl⟩

theorem setNonradiative_lines (s : Shell K) (labels : List Str) (values : List K) :
    (s.setNonradiative labels values).2.name = s.name ∧
    (s.setNonradiative labels values).2.fluorescence = s.fluorescence := by
  unfold Shell.setNonradiative
  split <;> exact ⟨rfl, rfl⟩

/-- Setting shell data keeps the invariant, whether it succeeds or not. -/
theorem Made.apply {e : Element K} (h : Made e) (kind : Kind) {sub : Str} (hsub : sub ∈ Element.keys) (d : SMap Str K) :
    Made (kind.apply sub e d).2 := by
  cases kind with
  | constants =>
    unfold Kind.apply Element.setShellConstants
    dsimp only
    cases hs : e.shells.find? sub with
    | none => exact h
    | some s =>
      dsimp only
      have h1 : Made { e with shells := e.shells.insert sub (s.setShellConstants d).2 } :=
        h.insert hsub (h.name sub s hs) (fun t r ht => (h.lines sub s hs t r ht).2)
          (Shell.core_constants (h.core sub s hs) d)
      split
      · exact ⟨rfl, rfl, rfl, h1.4, h1.5, h1.6⟩
      · exact h1
  | radiative =>
    unfold Kind.apply Element.setRadiativeMap
    dsimp only
    split_ifs
    · cases hs : e.checkSubshell sub with
      | ok s =>
        dsimp only
        have hs' := checkSubshell_shell hs
        obtain ⟨h1, h2⟩ := setRadiative_lines (h.name sub s hs') (fun t r ht => (h.lines sub s hs' t r ht).2)
          (d.map Prod.fst) (d.map Prod.snd)
        have h3 : Made { e with shells := e.shells.insert sub (s.setRadiativeMap d).2 } := h.insert hsub h1 h2
          (Shell.core_radiative (h.core sub s hs') _ _)
        split
        · exact h3.clear
        · exact h3
      | throw _ => exact h
      | ub _ => exact h
      | diverge => exact h
    · exact h
  | nonradiative =>
    unfold Kind.apply Element.setNonradiativeMap Element.setNonradiative
    dsimp only
    split_ifs
    · cases hs : e.checkSubshell sub with
      | ok s =>
        dsimp only
        have hs' := checkSubshell_shell hs
        obtain ⟨h1, h2⟩ := setNonradiative_lines s (d.map Prod.fst) (d.map Prod.snd)
        have h3 : Made { e with shells := e.shells.insert sub (s.setNonradiative (d.map Prod.fst) (d.map Prod.snd)).2 } :=
          h.insert hsub (h1.trans (h.name sub s hs')) (fun t r ht => by
            rw [h2] at ht; exact (h.lines sub s hs' t r ht).2) (Shell.core_nonradiative (h.core sub s hs') _ _ (by simp))
        split
        · exact h3.clear
        · exact h3
      | throw _ => exact h
      | ub _ => exact h
      | diverge => exact h
    · exact h

/-! ### Files of shell data -/

/-- All the elements of a list. -/
def AllMade (els : List (LibElement K)) : Prop := ∀ a ∈ els, Made a.data

theorem AllMade.set {els : List (LibElement K)} (h : AllMade els) (n : Nat) {a : LibElement K} (ha : Made a.data) :
    AllMade (els.set n a) := by
  intro b hb
  rcases List.mem_or_eq_of_mem_set hb with h1 | h1
  · exact h b h1
  · rw [h1]; exact ha

theorem rowsLoop_made (kind : Kind) {sub : Str} (hs : sub ∈ Element.keys) (labels : List Str) :
    ∀ (rows : List (List K)) (n : Nat) (acc : SMap Str K) (els : List (LibElement K)), AllMade els →
    AllMade (Loader.rowsLoop kind sub labels rows n acc els).2
  | [], _, _, els, h => h
  | row :: rows, n, acc, els, h => by
    unfold Loader.rowsLoop
    split
    · rename_i d _
      split
      · exact h
      · rename_i e he
        have h1 : AllMade (els.set n { e with data := (kind.apply sub e.data d).2 }) :=
          h.set n ((h e (List.mem_of_getElem? he)).apply kind hs d)
        dsimp only
        split
        · exact rowsLoop_made kind hs labels rows (n + 1) _ _ h1
        · exact h1
    all_goals exact h

theorem scansLoop_made (kind : Kind) (strtod : Str → K) (r : Specfile.Reader) : ∀ (ss : List Str) (i : Nat)
    (els : List (LibElement K)), (∀ s ∈ ss, s ∈ Element.keys) → AllMade els →
    AllMade (Loader.scansLoop kind strtod r ss i els).2
  | [], _, els, _, h => h
  | s :: ss, i, els, hs, h => by
    unfold Loader.scansLoop
    split
    · rename_i labels rows _
      have h1 := rowsLoop_made kind (hs s (by simp)) labels rows 0 [] els h
      dsimp only
      split
      · exact scansLoop_made kind strtod r ss (i + 1) _ (fun s h => hs s (by simp [h])) h1
      · exact h1
    all_goals exact h

theorem load_made (kind : Kind) (strtod : Str → K) (s : State K) (main fileName : String) (text : Option Str)
    (h : AllMade s.elements) : AllMade (load kind strtod s main fileName text).2.elements := by
  unfold load
  split
  · exact h
  · rename_i subs hsubs
    dsimp only
    split_ifs
    · exact h
    · have h1 := scansLoop_made kind strtod (Specfile.setFileName (Specfile.File.ofText text)) subs 0 s.elements
        (subshells_keys hsubs) h
      split <;> exact h1

theorem loadFiles_made (strtod : Str → K) (fs : Files) (dir : String) : ∀ (l : List (Kind × String × String))
    (s s' : State K), loadFiles strtod fs dir l s = .ok s' → AllMade s.elements → AllMade s'.elements
  | [], s, s', h, hm => by cases h; exact hm
  | (kind, main, file) :: rest, s, s', h, hm => by
    obtain ⟨s1, _, h1, h2⟩ := loadFiles_cons h
    refine loadFiles_made strtod fs dir rest s1 s' h2 ?_
    have := load_made kind strtod s main (dir ++ "//" ++ file) (fs (dir ++ "//" ++ file)) hm
    rw [h1] at this
    exact this

/-! ### New elements and coefficients -/

theorem thenDo_made {α : Type} {o : Outcome α} {e : Element K} {f : α → Outcome Unit × Element K} (h : Made e)
    (hf : ∀ a, Made (f a).2) : Made (thenDo o e f).2 := by
  cases o with
  | ok a => exact hf a
  | throw _ => exact h
  | ub _ => exact h
  | diverge => exact h

theorem Made.setPartial {e : Element K} (h : Made e) (s : Str) (E V : List K) : Made (e.setPartial s E V).2 := by
  unfold Element.setPartial
  split_ifs
  · exact h
  · exact h
  · exact h
  · exact ⟨h.1, rfl, rfl, h.4, h.5, h.6⟩
  all_goals exact ⟨h.1, rfl, rfl, h.4, h.5, h.6⟩

theorem Made.setPartials (t : SMap Str (List K)) : ∀ (ss : List Str) {e : Element K}, Made e →
    Made (Element.setPartials t ss e).2
  | [], e, h => h
  | s :: ss, e, h => by
    unfold Element.setPartials
    dsimp only
    exact thenDo_made (h.setPartial _ _ _) (fun _ => Made.setPartials t ss (h.setPartial _ _ _))

theorem Made.setMass {e : Element K} (h : Made e) (E ph coh com pai : List K) :
    Made (e.setMassAttenuationCoefficients E ph coh com pai).2 := by
  unfold Element.setMassAttenuationCoefficients
  split_ifs
  all_goals first | exact h | exact ⟨h.1, rfl, rfl, h.4, h.5, h.6⟩

theorem Made.setAll {e : Element K} (h : Made e) (t : SMap Str (List K)) : Made (e.setAll t).2 := by
  unfold Element.setAll
  dsimp only
  exact thenDo_made (h.setMass _ _ _ _ _) (fun _ => Made.setPartials t _ (h.setMass _ _ _ _ _))

theorem Made.edges {e : Element K} (h : Made e) (E V : List K) : Made (e.extractEdges E V).2 := by
  unfold Element.extractEdges
  split_ifs
  all_goals first | exact h | exact ⟨h.1, h.2, h.3, h.4, h.5, h.6⟩

theorem Made.install [Trans K] {e : Element K} (h : Made e) (epdl : EPDL97 K) (energy photo coherent compton pair : List K) :
    Made (e.install epdl energy photo coherent compton pair).2 := by
  unfold Element.install
  refine thenDo_made h (fun t => ?_)
  dsimp only
  refine thenDo_made (h.setAll t) (fun _ => ?_)
  unfold Element.adapt
  refine thenDo_made (h.setAll t) (fun j => ?_)
  dsimp only
  refine thenDo_made ((h.setAll t).edges _ _) (fun edges => ?_)
  exact thenDo_made ((h.setAll t).edges _ _) (fun T => ((h.setAll t).edges _ _).setAll T)

theorem mk?_name {k : Str} {s : Shell K} (h : Shell.mk? k = .ok s) : s.name = k ∧ s.fluorescence = [] := by
  unfold Shell.mk? at h
  split_ifs at h
  dsimp only at h
  split at h
  · split at h
    · cases h
    · split_ifs at h
      cases h; exact ⟨rfl, rfl⟩
  · cases h; exact ⟨rfl, rfl⟩

theorem makeElement_made {epdl : EPDL97 K} {i : Info} {a : LibElement K} (h : makeElement epdl i = .ok a) : Made a.data := by
  obtain ⟨e, b, e1, t, h1, h2, h3, h4, h5, _, _⟩ := makeElement_ok h
  have he : Made e := by
    unfold Element.mk? at h1
    split_ifs at h1
    cases h1
    refine ⟨rfl, rfl, rfl, ?_, ?_, ?_⟩
    · intro k s hk; cases hk
    · intro k s hk; cases hk
    · intro k s hk; cases hk
  have he1 : Made e1 := by
    unfold Element.setBindingEnergies at h3
    injection h3 with _ h3
    subst h3
    have hk : ∀ k s, (Element.bindingLoop b [] ([] : SMap Str (Shell K))).2.2.find? k = some s → Shell.mk? k = .ok s := by
      intro k s hk
      rcases bindingLoop_fresh b [] [] k s hk with h | h
      · cases h
      · exact h
    refine ⟨he.1, he.2, he.3, fun k s hs => (mk?_name (hk k s hs)).1, fun k s hs t r ht => ?_,
      fun k s hs => Shell.core_mk (hk k s hs)⟩
    rw [(mk?_name (hk k s hs)).2] at ht
    cases ht
  have := he1.setAll t
  rw [h5] at this
  exact this

theorem setUp_made {on : Bool} {key : EscapeKey K} {strtod : Str → K} {fs : Files} {dir binding : String} {d : Database K}
    (h : setUp on key strtod fs dir binding = .ok d) : AllMade d.lib.elements ∧ d.lib.escape = [] := by
  obtain ⟨epdl, els, s, _, _, h3, h4, h5, _, _⟩ := setUp_ok h
  have h1 : AllMade els := by
    intro a ha
    obtain ⟨n, hn⟩ := List.mem_iff_getElem?.1 ha
    obtain ⟨i, _, hi⟩ := forall₂_get h3.flip hn
    exact makeElement_made hi
  rw [h5]
  exact ⟨loadFiles_made strtod fs dir _ _ _ h4 h1, rfl⟩

theorem cross_made [Trans K] {strtod : Str → K} {fs : Files} {file : String} {d d1 : Database K}
    (h : withCrossSections strtod fs file d = .ok d1) (hN : Library.Named d.lib) (hm : AllMade d.lib.elements)
    (he : d.lib.escape = []) : AllMade d1.lib.elements ∧ d1.lib.escape = [] := by
  unfold withCrossSections at h
  obtain ⟨u, h1, h⟩ := Outcome.bind_eq_ok.1 h
  cases h
  have hc := Library.C109_scans d.epdl strtod d.lib (fs file) hN h1
  simp only at hc
  obtain ⟨_, c2, c3, c4, c5, c6, c7⟩ := hc
  refine ⟨?_, by dsimp only; rw [c7, he]⟩
  intro a ha
  obtain ⟨n, hn⟩ := List.mem_iff_getElem?.1 ha
  rcases lt_or_ge n ((Specfile.File.ofText (fs file)).lines.filter Specfile.isScan).length with h2 | h2
  · obtain ⟨e', t, g1, g2, g3, g4⟩ := c3 n h2
    rw [hn] at g4
    obtain rfl := Option.some.inj g4
    exact (hm e' (List.mem_of_getElem? g1)).install _ _ _ _ _ _
  · rw [c4 n h2] at hn
    exact hm a (List.mem_of_getElem? hn)

/-! ## C127 -/

theorem toUpper_ne_e (c : Char) : c.toUpper ≠ 'e' := by
  unfold Char.toUpper
  intro hc
  split_ifs at hc with h1
  · have h2 := congrArg Char.val hc
    simp only at h2
    have h3 : c.val = 'e'.val - ('A'.val - 'a'.val) := by rw [← h2]; simp
    have h4 : c.val.toNat = 133 := by rw [h3]; rfl
    have h5 := h1.2
    rw [UInt32.le_iff_toNat_le, h4] at h5
    revert h5; decide
  · subst hc
    exact h1 (by decide)

theorem upper_no_e (l : Str) : 'e' ∉ l.upper := by
  intro h
  unfold Str.upper at h
  obtain ⟨c, _, hc⟩ := List.mem_map.1 h
  exact toUpper_ne_e c hc

theorem lineName_no_e (l : Str) : 'e' ∉ lineName l := by
  have h1 : 'e' ∉ (if l.upper.length = 2 then l.upper ++ ['2'] else l.upper) := by
    split_ifs
    · simp only [List.mem_append, List.mem_singleton, not_or]
      exact ⟨upper_no_e l, by decide⟩
    · exact upper_no_e l
  unfold lineName
  dsimp only
  generalize (if l.upper.length = 2 then l.upper ++ ['2'] else l.upper) = t at h1 ⊢
  split_ifs
  · exact fun h => h1 (List.mem_of_mem_take h)
  · exact h1

theorem noEsc_of_no_e : ∀ t : Str, 'e' ∉ t → Multilayer.hasEsc t = false
  | [], _ => rfl
  | c :: t, h => by
    unfold Multilayer.hasEsc
    have hc : c ≠ 'e' := fun hc => h (by simp [hc])
    rw [noEsc_of_no_e t (fun ht => h (by simp [ht]))]
    simp only [Bool.or_false]
    rw [Bool.eq_false_iff]
    intro hp
    rw [List.isPrefixOf_iff_prefix] at hp
    obtain ⟨r, hr⟩ := hp
    simp only [show "esc".toList = ['e', 's', 'c'] from rfl, List.cons_append, List.cons.injEq] at hr
    exact hc hr.1.symm

/-- The data of the elements make sense: no negative binding energy, and the lines of the K, L and M subshells carry the
name of their subshell and have no blank. -/
structure SaneData (L : Library K) : Prop where
  binding : ∀ e ∈ L.elements, ∀ k b, e.data.binding.find? k = some b → 0 ≤ b
  labels : ∀ e ∈ L.elements, ∀ sub ∈ Element.keys, ∀ s, e.data.shells.find? sub = some s →
    ∀ t r, (t, r) ∈ s.fluorescence → sub <+: t ∧ ' ' ∉ t

theorem keys_prefix : ∀ a ∈ Element.keys, ∀ b ∈ Element.keys, a <+: b → a = b := by decide

theorem sound_of_made {pf : String → Outcome (SMap String ℝ)} {fuel : Nat} {L : Library ℝ} (hm : AllMade L.elements)
    (he : L.escape = []) (hs : SaneData L) : Multilayer.SoundLibrary pf fuel L := by
  refine ⟨fun e hel => ?_, Library.escapeTrue_empty pf fuel L he⟩
  have hM := hm e hel
  refine ⟨Or.inl hM.cascade, Element.cacheTrue_empty hM.mu hM.exc, ?_, ?_, ?_, hs.binding e hel⟩
  · intro k s k' s' t r r' h1 h2 h3 h4
    have hk := (hM.lines k s h1 t r h3).1
    have hk' := (hM.lines k' s' h2 t r' h4).1
    have p := (hs.labels e hel k hk s h1 t r h3).1
    have p' := (hs.labels e hel k' hk' s' h2 t r' h4).1
    rcases List.prefix_or_prefix_of_prefix p p' with h | h
    · exact keys_prefix k hk k' hk' h
    · exact (keys_prefix k' hk' k hk h).symm
  · intro k s t r h1 h2
    exact (hs.labels e hel k (hM.lines k s h1 t r h2).1 s h1 t r h2).2
  · intro k s t r h1 h2
    obtain ⟨_, l, hl⟩ := hM.lines k s h1 t r h2
    refine noEsc_of_no_e t ?_
    rw [radiativeKey_name hl]
    exact lineName_no_e l


theorem constructed_made [Trans K] {on : Bool} {key : EscapeKey K} {strtod : Str → K} {fs : Files} {dataDir dir binding cross : String}
    {pymca : Bool} {d : Database K} (h : construct1 on key strtod fs dataDir dir = .ok d ∨ construct2 on key strtod fs dir pymca = .ok d ∨
      construct3 on key strtod fs dir binding cross = .ok d) : AllMade d.lib.elements ∧ d.lib.escape = [] := by
  rcases h with h | h | h
  · unfold construct1 at h
    split_ifs at h <;> exact setUp_made h
  · cases pymca with
    | true =>
      obtain ⟨d0, d1, s, _, h3, h4, h5, rfl⟩ := construct2_ok h
      obtain ⟨m0, e0⟩ := setUp_made h3
      obtain ⟨m1, e1⟩ := cross_made h4 (setUp_named h3) m0 e0
      exact ⟨loadFiles_made _ _ _ _ _ _ h5 m1, e1⟩
    | false =>
      unfold construct2 at h
      obtain ⟨p, _, h⟩ := Outcome.bind_eq_ok.1 h
      rw [if_neg (by decide)] at h
      exact setUp_made h
  · unfold construct3 at h
    obtain ⟨d0, h3, h⟩ := Outcome.bind_eq_ok.1 h
    split_ifs at h
    · obtain ⟨m0, e0⟩ := setUp_made h3
      exact cross_made h (setUp_named h3) m0 e0
    · cases h
      exact setUp_made h3

/-- **C127** The libraries made by the three constructors are sound when their data make sense. -/
theorem C127_sound (pf : String → Outcome (SMap String ℝ)) (fuel : Nat) (on : Bool) (key : EscapeKey ℝ)
    (strtod : Str → ℝ) (fs : Files) (dataDir dir binding cross : String) (pymca : Bool) (d : Database ℝ)
    (h : construct1 on key strtod fs dataDir dir = .ok d ∨ construct2 on key strtod fs dir pymca = .ok d ∨
      construct3 on key strtod fs dir binding cross = .ok d) (hs : SaneData d.lib) :
    Multilayer.SoundLibrary pf fuel d.lib := by
  have h1 := constructed_made h
  exact sound_of_made h1.1 h1.2 hs

end Init
end Fisx
