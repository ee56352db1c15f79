import Verif.MultilayerParts

/-!
# Malformed requests of the fluorescence calculation (C100)

A request that does not name a line family never gives a result as soon as the beam has a ray. The parser accepts such a
request, it is the calculation that refuses it: fisx_multilayer.cpp:438-441.
-/

set_option linter.unusedSectionVars false

namespace Fisx
namespace Multilayer

open Xrf (Request)

section

variable {K : Type} [Field K] [LinearOrder K] [IsStrictOrderedRing K]

/-- Every request is examined for the first ray that is treated. -/
theorem requestLoop_families {env : Env K} {o : Options K} {rd : RayData K} :
    ∀ (reqs : List (Outcome Request)) (n : Nat) (thrs : List K) (res : Result K) (out : List K × Result K),
      requestLoop env o rd n reqs thrs res = .ok out → ∀ q ∈ reqs, ∃ r : Request, q = .ok r ∧ r.family ≠ "" := by
  intro reqs
  induction reqs with
  | nil => intro n thrs res out _ q hq; cases hq
  | cons a rest ih =>
    intro n thrs res out h q hq
    rw [requestLoop] at h
    obtain ⟨req, hreq, h⟩ := Outcome.bind_eq_ok.1 h
    obtain ⟨⟨thr, thrs'⟩, ht, h⟩ := Outcome.bind_eq_ok.1 h
    have hfam : req.family ≠ "" := by
      intro h0
      unfold thresholdOf at ht
      rw [if_pos h0] at ht
      cases ht
    rcases List.mem_cons.1 hq with rfl | hq
    · exact ⟨req, hreq, hfam⟩
    · dsimp only at h
      split at h
      · exact ih _ _ _ _ h q hq
      · obtain ⟨fs, _, h⟩ := Outcome.bind_eq_ok.1 h
        obtain ⟨res', _, h⟩ := Outcome.bind_eq_ok.1 h
        exact ih _ _ _ _ h q hq

theorem calculate_families {env : Env K} {o : Options K} {reqs : List (Outcome Request)} {rays : List (K × K)}
    {r : Result K} (h : calculate env o reqs rays = .ok r) (hne : rays ≠ []) (hpos : ∀ q ∈ rays, 0 ≤ q.1) :
    ∀ q ∈ reqs, ∃ r : Request, q = .ok r ∧ r.family ≠ "" := by
  unfold calculate at h
  obtain ⟨r', h1, _⟩ := Outcome.bind_eq_ok.1 h
  cases hr : rays.reverse with
  | nil => exact absurd (List.reverse_eq_nil_iff.1 hr) hne
  | cons a rest =>
    obtain ⟨e, w⟩ := a
    have he : 0 ≤ e := hpos (e, w) (by rw [← List.mem_reverse, hr]; simp)
    rw [hr, rayLoop] at h1
    have hm : minimumThreshold ([] : List K) (-1) = -1 := by simp [minimumThreshold]
    rw [hm] at h1
    dsimp only at h1
    rw [if_neg (by intro h0; have : (0 : K) < 1 := one_pos; linarith)] at h1
    obtain ⟨rd, _, h1⟩ := Outcome.bind_eq_ok.1 h1
    obtain ⟨⟨thrs, res⟩, h2, _⟩ := Outcome.bind_eq_ok.1 h1
    exact requestLoop_families _ _ _ _ _ h2

end

variable {R : Type} (pf : String → Outcome (SMap String ℝ)) (fuel : Nat) (L : Library ℝ) (c : Config ℝ R)
  (srt : List (String × ℝ) → List (String × ℝ)) (o : Options ℝ) (g : Bool)

/-! ## The specification -/

/-- A field with something in it. -/
def Filled (s : Str) : Prop := ∃ x ∈ s, Ini.isSpace x = false

/-- The number in a field is an integer for the conversion used; only the first word of the field is looked at. -/
def IsInteger (int : Str → Option Int) (l : Str) : Prop := (int ((Ini.word l).getD [])).isSome

/-- What is accepted: two fields, the second one with something in it, or three with an integer in the last one; the fields
are separated by a single blank and a final blank does not count. -/
def Acceptable (int : Str → Option Int) (s : Str) : Prop :=
  ∃ e f, ' ' ∉ e ∧ ' ' ∉ f ∧ Filled f ∧
    (s = e ++ ' ' :: f ∨ s = e ++ ' ' :: (f ++ [' ']) ∨
      ∃ l, ' ' ∉ l ∧ IsInteger int l ∧ (s = e ++ ' ' :: (f ++ ' ' :: l) ∨ s = e ++ ' ' :: (f ++ ' ' :: (l ++ [' ']))))

/-! ## Proofs -/

theorem word_filled (f : Str) : Filled f ↔ (Ini.word f).getD [] ≠ [] := by
  unfold Filled Ini.word
  induction f with
  | nil => simp
  | cons x t ih =>
    by_cases hx : Ini.isSpace x = true
    · simp only [List.dropWhile_cons, hx, if_true]
      rw [← ih]
      simp [hx]
    · simp only [Bool.not_eq_true] at hx
      simp [hx]

theorem items_blank_free {a : Str} (h : ' ' ∉ a) (cur : Str) :
    Ini.itemsFrom ' ' cur a = if cur ++ a = [] then [] else [cur ++ a] := by
  induction a generalizing cur with
  | nil => simp [Ini.itemsFrom]
  | cons x t ih =>
    simp only [List.mem_cons, not_or] at h
    rw [Ini.itemsFrom, if_neg (Ne.symm h.1), ih h.2]
    simp

theorem items_blank {a : Str} (h : ' ' ∉ a) (b cur : Str) :
    Ini.itemsFrom ' ' cur (a ++ ' ' :: b) = (cur ++ a) :: Ini.itemsFrom ' ' [] b := by
  induction a generalizing cur with
  | nil => simp [Ini.itemsFrom]
  | cons x t ih =>
    simp only [List.mem_cons, not_or] at h
    rw [List.cons_append, Ini.itemsFrom, if_neg (Ne.symm h.1), ih h.2]
    simp

/-- A text has no blank or a first one. -/
theorem split_blank (s : Str) : ' ' ∉ s ∨ ∃ a b, s = a ++ ' ' :: b ∧ ' ' ∉ a := by
  induction s with
  | nil => simp
  | cons x t ih =>
    by_cases hx : x = ' '
    · exact Or.inr ⟨[], t, by simp [hx], by simp⟩
    · rcases ih with h | ⟨a, b, h1, h2⟩
      · left; simp [h, Ne.symm hx]
      · exact Or.inr ⟨x :: a, b, by simp [h1], by simp [h2, Ne.symm hx]⟩

theorem ofList_eq_empty (l : Str) : String.ofList l = "" ↔ l = [] := by
  constructor
  · intro h
    have := congrArg String.toList h
    simpa using this
  · rintro rfl; rfl

/-- The requests that the calculation does not refuse are the acceptable ones. -/
theorem parse_acceptable (int : Str → Option Int) (s : Str) :
    (∃ r, Xrf.parseRequest int s = .ok r ∧ r.family ≠ "") ↔ Acceptable int s := by
  have two : ∀ e f, Filled f → Ini.items ' ' s = [e, f] → ∃ r, Xrf.parseRequest int s = .ok r ∧ r.family ≠ "" := by
    intro e f hf h
    unfold Xrf.parseRequest Ini.multipleValues
    rw [h]
    exact ⟨_, rfl, by simpa [ofList_eq_empty] using (word_filled f).1 hf⟩
  have three : ∀ e f l, Filled f → IsInteger int l → Ini.items ' ' s = [e, f, l] →
      ∃ r, Xrf.parseRequest int s = .ok r ∧ r.family ≠ "" := by
    intro e f l hf hl h
    unfold IsInteger at hl
    obtain ⟨n, hn⟩ := Option.isSome_iff_exists.1 hl
    unfold Xrf.parseRequest Ini.multipleValues
    rw [h]
    simp only [List.map_cons, List.map_nil, hn]
    exact ⟨_, rfl, by simpa [ofList_eq_empty] using (word_filled f).1 hf⟩
  constructor
  · rintro ⟨r, hr, hfam⟩
    unfold Xrf.parseRequest Ini.multipleValues Ini.items at hr
    have fam : ∀ {f : Str}, String.ofList ((Ini.word f).getD []) ≠ "" → Filled f := by
      intro f h
      rw [word_filled]
      exact fun h0 => h (by rw [h0])
    rcases split_blank s with h | ⟨e, b, rfl, he⟩
    · exfalso
      rw [items_blank_free h] at hr
      by_cases h0 : [] ++ s = []
      · rw [if_pos h0] at hr; cases hr; exact hfam rfl
      · rw [if_neg h0] at hr; cases hr; exact hfam rfl
    · rw [items_blank he] at hr
      rcases split_blank b with h | ⟨f, b2, rfl, hf⟩
      · rw [items_blank_free h] at hr
        by_cases h0 : [] ++ b = []
        · exfalso; rw [if_pos h0] at hr; cases hr; exact hfam rfl
        · rw [if_neg h0] at hr
          cases hr
          exact ⟨e, b, he, h, fam (by simpa using hfam), Or.inl rfl⟩
      · rw [items_blank hf] at hr
        rcases split_blank b2 with h | ⟨l, b3, rfl, hl⟩
        · rw [items_blank_free h] at hr
          by_cases h0 : [] ++ b2 = []
          · rw [if_pos h0] at hr
            cases hr
            have : b2 = [] := by simpa using h0
            subst this
            exact ⟨e, f, he, hf, fam (by simpa using hfam), Or.inr (Or.inl (by simp))⟩
          · rw [if_neg h0] at hr
            simp only [List.map_cons, List.map_nil, List.nil_append] at hr
            cases hi : int ((Ini.word b2).getD []) with
            | none => rw [hi] at hr; cases hr
            | some n =>
              rw [hi] at hr
              cases hr
              exact ⟨e, f, he, hf, fam (by simpa using hfam), Or.inr (Or.inr ⟨b2, h, by simp [IsInteger, hi], Or.inl rfl⟩)⟩
        · rw [items_blank hl] at hr
          cases hb : Ini.itemsFrom ' ' [] b3 with
          | cons x xs =>
            exfalso
            rw [hb] at hr
            cases hr
            exact hfam rfl
          | nil =>
            have h3 : b3 = [] := by
              rcases split_blank b3 with h | ⟨p, q, rfl, hp⟩
              · rw [items_blank_free h] at hb
                by_contra h0
                rw [if_neg (by simpa using h0)] at hb
                cases hb
              · rw [items_blank hp] at hb; cases hb
            subst h3
            rw [hb] at hr
            simp only [List.map_cons, List.map_nil, List.nil_append] at hr
            cases hi : int ((Ini.word l).getD []) with
            | none => rw [hi] at hr; cases hr
            | some n =>
              rw [hi] at hr
              cases hr
              exact ⟨e, f, he, hf, fam (by simpa using hfam), Or.inr (Or.inr ⟨l, hl, by simp [IsInteger, hi], Or.inr (by simp)⟩)⟩
  · rintro ⟨e, f, he, hf, hfil, h⟩
    have hfne : f ≠ [] := by
      rintro rfl
      obtain ⟨x, hx, _⟩ := hfil
      cases hx
    rcases h with rfl | rfl | ⟨l, hl, hi, h⟩
    · refine two e f hfil ?_
      unfold Ini.items
      rw [items_blank he, items_blank_free hf, if_neg (by simpa using hfne)]
      rfl
    · refine two e f hfil ?_
      unfold Ini.items
      rw [items_blank he, items_blank hf]
      rfl
    · rcases h with rfl | rfl
      · by_cases hl0 : l = []
        · subst hl0
          refine two e f hfil ?_
          unfold Ini.items
          rw [items_blank he, items_blank hf]
          rfl
        · refine three e f l hfil hi ?_
          unfold Ini.items
          rw [items_blank he, items_blank hf, items_blank_free hl, if_neg (by simpa using hl0)]
          rfl
      · refine three e f l hfil hi ?_
        unfold Ini.items
        rw [items_blank he, items_blank hf, items_blank hl]
        rfl

/-- **C100** For every configuration, library and list of strings: when the calculation gives a result and the beam has rays,
each string has two fields with a family in the second one, or three with an integer in the last one. Every other string
(without a family, with four fields, with two blanks in a row, with a layer that is no number) makes the call fail. Missing:
fields containing other blank characters, see `C100_tab_violated`. -/
theorem C100_rejected_partial (int : Str → Option Int) (items : List Str) (b : Beam ℝ) (r : Result ℝ)
    (h : fluorescenceStrings pf fuel L c srt o g b int items = .ok r)
    (hne : usedBeam c b ≠ []) (hpos : ∀ q ∈ usedBeam c b, 0 ≤ q.1) :
    ∀ s ∈ items, Acceptable int s := by
  obtain ⟨rs, h1, _⟩ := Outcome.bind_eq_ok.1 h
  have h1' : Xrf.parseRequests int items = .ok rs := h1
  have hall := (Xrf.C54_list int items rs).1 h1'
  rw [C116_strings pf fuel L c srt o g int items b rs hall] at h
  obtain ⟨comps, geoms, _, _, hc⟩ := fluorescence_ok h
  have hf := calculate_families hc (by simpa using hne) (by
    intro q hq
    obtain ⟨p, hp, rfl⟩ := List.mem_map.1 hq
    exact hpos p hp)
  have hf' : ∀ q ∈ rs, q.family ≠ "" := by
    intro q hq
    obtain ⟨q', h1, h2⟩ := hf (.ok q) (List.mem_map_of_mem hq)
    injection h1 with h1
    rw [h1]
    exact h2
  clear * - hall hf'
  induction hall with
  | nil => simp
  | cons h1 _ ih =>
    intro s hs
    rcases List.mem_cons.1 hs with rfl | hs
    · exact (parse_acceptable int s).1 ⟨_, h1, hf' _ (by simp)⟩
    · exact ih (fun q hq => hf' q (List.mem_cons_of_mem _ hq)) s hs

/-- **C100** No other string is refused by the parser or by the check of the family: an acceptable one becomes a request with
a family. -/
theorem C100_accepted_iff (int : Str → Option Int) (s : Str) :
    (∃ r, Xrf.parseRequest int s = .ok r ∧ r.family ≠ "") ↔ Acceptable int s := parse_acceptable int s

/-- **C100** (violation) Only the first word of a field is used: `Fe K<tab>2` is taken for iron, family K, in all the layers. -/
theorem C100_tab_violated (int : Str → Option Int) :
    Xrf.parseRequest int "Fe K\t2".toList = .ok { element := "Fe", family := "K", layer := -1 } := rfl

/-- An acceptable string and some that are not. -/
example : Acceptable (fun _ => some 0) "Fe K 0".toList ∧ ¬ Acceptable (fun _ => some 0) "Fe".toList ∧
    ¬ Acceptable (fun _ => some 0) "Fe K 0 1".toList ∧ ¬ Acceptable (fun _ => some 0) "Fe  K".toList := by
  refine ⟨⟨"Fe".toList, "K".toList, by decide, by decide, ⟨'K', by decide, by decide⟩, Or.inr (Or.inr ⟨"0".toList, by decide,
    rfl, Or.inl rfl⟩)⟩, ?_, ?_, ?_⟩ <;>
  · rw [← parse_acceptable]
    rintro ⟨r, h, h2⟩
    cases h
    exact h2 rfl

/-- The hypotheses are met: the calculation for a sheet of iron returns for the string `Fe K 0`. For `Fe` it does not. -/
example (fuel : Nat) (srt : List (String × ℝ) → List (String × ℝ)) (hs : Library.SortsByEnergy srt) (limit : ℝ) :
    (∃ r, fluorescenceStrings feParser (fuel + 1) feLibrary feConfig srt ⟨0, true, limit⟩ true Beam.new (fun _ => some 0)
      ["Fe K 0".toList] = .ok r) ∧ usedBeam feConfig Beam.new ≠ [] ∧ (∀ q ∈ usedBeam feConfig Beam.new, 0 ≤ q.1) ∧
    ∀ r, fluorescenceStrings feParser (fuel + 1) feLibrary feConfig srt ⟨0, true, limit⟩ true Beam.new (fun _ => some 0)
      ["Fe".toList] ≠ .ok r := by
  have h1 : usedBeam feConfig Beam.new ≠ [] := by simp [usedBeam, feConfig, Beam.new]
  have h2 : ∀ q ∈ usedBeam feConfig Beam.new, 0 ≤ q.1 := by simp [usedBeam, feConfig, Beam.new]
  refine ⟨?_, h1, h2, fun r hr => ?_⟩
  · rw [C116_strings feParser (fuel + 1) feLibrary feConfig srt ⟨0, true, limit⟩ true _ _ _ [⟨"Fe", "K", 0⟩]
      (List.Forall₂.cons rfl List.Forall₂.nil)]
    obtain ⟨r, hr, _⟩ := fe_result fuel srt hs limit
    exact ⟨r, hr⟩
  · have := C100_rejected_partial _ _ _ _ _ _ _ _ _ _ _ hr h1 h2 "Fe".toList (by simp)
    rw [← parse_acceptable] at this
    obtain ⟨r, h, h2⟩ := this
    cases h
    exact h2 rfl

end Multilayer
end Fisx
