import Verif.ConfigProps

/-!
# The order of the layers of a configuration file (C101)

`C64_layers` says what the layers are in terms of the maps of the reader of ini files, `C35_faithful` what these maps
contain. Here both are put together: the layers in terms of the lines of the file.
-/

set_option linter.unusedSectionVars false

namespace Fisx

namespace Ini

/-- What a document writes in the sections of a name: the keys and the values, in the order of the file. -/
def Doc.written (d : Doc) (name : Str) : List (Str × Str) :=
  ((d.sections.filter (fun s => s.name = name)).flatMap Section.entries).map (fun e => (e.key, e.text))

/-- Every section of the reader is a map. -/
def InnerSorted (r : Reader) : Prop := ∀ n m, r.contents.find? n = some m → SMap.Sorted m

theorem innerSorted_setEntry {r : Reader} (h : InnerSorted r) (main key content : Str) :
    InnerSorted (setEntry r main key content) := by
  intro n m hn
  unfold setEntry at hn
  simp only [SMap.find?_insert] at hn
  split at hn
  · simp only [Option.some.injEq] at hn
    rw [← hn]
    apply SMap.insert_sorted
    unfold entry
    cases hm : r.contents.find? main with
    | none => simp
    | some x => simpa using h _ _ hm
  · exact h _ _ hn

theorem innerSorted_readLine {st : State} (h : InnerSorted st.reader) (l : Str) :
    InnerSorted (readLine st l).2.reader := by
  unfold readLine
  split
  · exact h
  · split
    · unfold header
      repeat' split
      all_goals exact h
    · unfold body
      dsimp only
      repeat' split
      all_goals first | exact h | exact innerSorted_setEntry h _ _ _

theorem innerSorted_readLines (ls : List Str) {st : State} (h : InnerSorted st.reader) :
    InnerSorted (readLines st ls).2.reader := by
  induction ls generalizing st with
  | nil => exact h
  | cons l rest ih =>
    have h1 := innerSorted_readLine h l
    unfold readLines
    split
    · rename_i st' hst
      rw [hst] at h1
      exact ih h1
    · rename_i o st' _ hst
      rw [hst] at h1
      exact h1

theorem innerSorted_read (text : Str) : InnerSorted (read new (some text)).2 := by
  unfold read
  refine innerSorted_readLines _ ?_
  intro n m hn
  simp [new] at hn

theorem value_written (d : Doc) (name : Str) (hs : SMap.Sorted (d.written name)) (key : Str) :
    d.value name key = SMap.find? (d.written name) key := by
  unfold Doc.value Doc.written at *
  generalize (d.sections.filter (fun s => s.name = name)).flatMap Section.entries = es at *
  induction es with
  | nil => rfl
  | cons e r ih =>
    rw [List.map_cons, SMap.sorted_cons] at hs
    by_cases hk : e.key = key
    · have hr : r.filter (fun e => e.key = key) = [] := by
        rw [List.filter_eq_nil_iff]
        intro x hx
        have := hs.1 (x.key, x.text) (List.mem_map.2 ⟨x, hx, rfl⟩)
        simp only [hk] at this
        simpa using ne_of_gt this
      rw [List.filter_cons_of_pos (by simpa using hk), hr]
      simp [hk]
    · rw [List.filter_cons_of_neg (by simpa using hk), ih hs.2]
      simp [hk]

/-- The map of a section whose keys are in ascending order is the list of its entries. -/
theorem contents_written {d : Doc} (h : d.WF) {r : Reader} (hr : read new (some d.text) = (.ok (), r)) (name : Str)
    (hs : SMap.Sorted (d.written name)) (hne : d.written name ≠ []) :
    r.contents.find? name = some (d.written name) := by
  obtain ⟨r', h1, -, h3⟩ := read_doc h new
  rw [hr] at h1
  cases h1
  have hin : InnerSorted r := by
    have := innerSorted_read d.text
    rw [hr] at this
    exact this
  have hl : ∀ k, lookup r name k = SMap.find? (d.written name) k := by
    intro k
    rw [h3 name k, value_written d name hs]
    simp [lookup, new]
  cases hf : r.contents.find? name with
  | none =>
    exfalso
    cases hw : d.written name with
    | nil => exact hne hw
    | cons e t =>
      have := hl e.1
      rw [hw] at this
      simp [lookup, hf] at this
  | some m =>
    congr 1
    refine SMap.ext_find? (hin _ _ hf) hs ?_
    intro k
    rw [← hl k]
    simp [lookup, hf]

end Ini

namespace Config

variable {K R : Type} [Field K] [LinearOrder K]
variable (setArea : Detector K R → K → Outcome Unit × Detector K R) (sort : List (Ray K) → List (Ray K))
variable (cv : Conv K)

open Classical in
/-- **C101** (missing: sections whose keys are not in ascending order, and files without attenuators, for which it is
false) When the keys of the sections `[attenuators]` and `[multilayer]` of a well formed file are written in
ascending order, the beam filters, the attenuators and the layers of the sample come in the order of the file, each
with the data of its own line. -/
theorem C101_order_partial {c c' : Config K R} {d : Ini.Doc} (hd : d.WF)
    (h : read setArea sort cv c (some d.text) = (.ok (), c'))
    (hatt : SMap.Sorted (d.written "attenuators".toList)) (hne : d.written "attenuators".toList ≠ [])
    (hml : SMap.Sorted (d.written "multilayer".toList))
    (hmne : (∃ e ∈ d.written "attenuators".toList, Enabled cv e ∧ IsMatrix e ∧ IsMultilayer e) →
      d.written "multilayer".toList ≠ []) :
    List.Forall₂ (LayerOf cv c'.materials (some 4))
      ((d.written "attenuators".toList).filter (fun e => FilterEntry cv e)) c'.beamFilters ∧
    List.Forall₂ (LayerOf cv c'.materials (some 4))
      ((d.written "attenuators".toList).filter (fun e => AttenuatorEntry cv e)) c'.attenuators ∧
    List.Forall₂ (LayerOf cv c'.materials none)
      ((d.written "attenuators".toList).filter (fun e => SampleEntry cv e) ++
        if ∃ e ∈ d.written "attenuators".toList, Enabled cv e ∧ IsMatrix e ∧ IsMultilayer e
        then (d.written "multilayer".toList).filter (fun e => Enabled cv e) else [])
      c'.sample := by
  obtain ⟨r, hr, -, -⟩ := Ini.read_doc hd Ini.new
  obtain ⟨a, b, e, -⟩ := C64_layers setArea sort cv h hr
    (Ini.contents_written hd hr "attenuators".toList hatt hne)
    (fun hx => Ini.contents_written hd hr "multilayer".toList hml (hmne hx))
  exact ⟨a, b, e⟩

/-! ### An example -/

/-- A line without blanks around it. -/
def bare : Ini.Layout := { before := [], indent := [], trail := [] }

/-- The line `key=value`. -/
def bareEntry (k v : String) : Ini.Entry :=
  { lay := bare, key := k.toList, gap := [], value := v.toList, more := [] }

/-- The line `[name]` and the lines of a section. -/
def bareSection (n : String) (es : List Ini.Entry) : Ini.Section :=
  { lay := bare, name := n.toList, note := [], entries := es }

theorem bare_wf : bare.WF := ⟨by simp [bare], by simp [bare, Ini.blank], by simp [bare, Ini.blank]⟩

theorem bareEntry_wf (k v : String) (h1 : k.toList ≠ [])
    (h2 : k.toList.all (fun c => Ini.isSpace c = false ∧ c ≠ '"' ∧ c ≠ '=' ∧ Ini.commentSign c = false) = true)
    (h3 : k.toList.head? ≠ some '[') (h4 : Ini.plain Ini.commentSign false v.toList = true)
    (h5 : '\n' ∉ v.toList) (h6 : (v.toList.getLast?.all (fun c => !Ini.isTrim c)) = true) : (bareEntry k v).WF := by
  refine ⟨bare_wf, h1, ?_, h3, by simp [bareEntry, Ini.blank], h4, h5, ?_, by simp [bareEntry]⟩
  · intro c hc
    simpa using List.all_eq_true.1 h2 c hc
  · intro c hc
    have h6' := h6
    rw [show v.toList = (bareEntry k v).value from rfl, hc] at h6'
    simpa using h6'

/-- A file with two filters, a sample of two layers and an attenuator. -/
def orderDoc : Ini.Doc :=
  { sections :=
      [bareSection "fit" [bareEntry "energy" "10"],
       bareSection "attenuators" [bareEntry "BeamFilter0" "1,Al,3,1,1", bareEntry "BeamFilter1" "1,Cu,3,1,1",
         bareEntry "Filter0" "1,Be,3,2,1", bareEntry "Matrix" "1, MULTILAYER, 0, 0, 45, 45, 0, 90"],
       bareSection "multilayer" [bareEntry "Layer0" "1,Fe,7,2", bareEntry "Layer1" "1,Cr,7,1"]]
    tail := [] }

theorem orderDoc_wf : orderDoc.WF := by
  have hs : ∀ n es, n ≠ "" → (n.toList.all (fun c => c ≠ '[' ∧ c ≠ ']' ∧ c ≠ '\n') = true) →
      (∀ e ∈ es, Ini.Entry.WF e) → (bareSection n es).WF := by
    intro n es h1 h2 h3
    refine ⟨bare_wf, by simpa [bareSection] using h1, ?_, by simp [bareSection], by simp [bareSection, Ini.noTrail], h3⟩
    intro c hc
    simpa using List.all_eq_true.1 h2 c hc
  refine ⟨?_, by simp [orderDoc]⟩
  intro s hm
  simp only [orderDoc, List.mem_cons, List.not_mem_nil, or_false] at hm
  rcases hm with rfl | rfl | rfl
  all_goals
    refine hs _ _ (by decide) (by decide) ?_
    intro e he
    simp only [List.mem_cons, List.not_mem_nil, or_false] at he
  · subst he
    exact bareEntry_wf _ _ (by decide) (by decide) (by decide) (by decide) (by decide) (by decide)
  · rcases he with rfl | rfl | rfl | rfl
    all_goals exact bareEntry_wf _ _ (by decide) (by decide) (by decide) (by decide) (by decide) (by decide)
  · rcases he with rfl | rfl
    all_goals exact bareEntry_wf _ _ (by decide) (by decide) (by decide) (by decide) (by decide) (by decide)

/-- The hypotheses of `C101_order_partial` are met, and the layers are those of the file. -/
example : (read (fun d _ => (.ok (), d)) id toyConv (new : Config ℚ Unit) (some orderDoc.text)).1 = .ok () ∧
    SMap.Sorted (orderDoc.written "attenuators".toList) ∧ orderDoc.written "attenuators".toList ≠ [] ∧
    SMap.Sorted (orderDoc.written "multilayer".toList) ∧ orderDoc.written "multilayer".toList ≠ [] ∧
    (read (fun d _ => (.ok (), d)) id toyConv (new : Config ℚ Unit) (some orderDoc.text)).2.sample.map
      (fun l => l.name) = ["Layer0", "Layer1"] ∧
    (read (fun d _ => (.ok (), d)) id toyConv (new : Config ℚ Unit) (some orderDoc.text)).2.beamFilters.map
      (fun l => l.name) = ["BeamFilter0", "BeamFilter1"] := by
  refine ⟨by decide +kernel, ?_, by decide +kernel, ?_, by decide +kernel, by decide +kernel, by decide +kernel⟩
  · unfold SMap.Sorted; decide +kernel
  · unfold SMap.Sorted; decide +kernel

end Config
end Fisx
