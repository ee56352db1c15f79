import Verif.InitShells
import Verif.InstallLibrary

/-!
# The files the constructors need, and the library with the data of PyMca (properties C124 and C125)
-/

set_option linter.unusedSectionVars false

namespace Fisx
namespace Init

open Loader (Kind State load subshellsOf columns OnlyShells)

variable {K : Type} [Field K] [LinearOrder K] [IsStrictOrderedRing K]

/-! ## C124 -/

/-- The file exists and the number of its scans (the lines that begin with `#S`) has the property. -/
def ScansThat (text : Option Str) (p : Nat → Prop) : Prop :=
  ∃ t, text = some t ∧ p ((Specfile.File.ofText (some t)).lines.filter Specfile.isScan).length

theorem no_file : Specfile.getNumberOfScans (Specfile.setFileName (Specfile.File.ofText none)) = 0 := by decide

theorem scansThat {text : Option Str} {p : Nat → Prop}
    (h : p (Specfile.getNumberOfScans (Specfile.setFileName (Specfile.File.ofText text))))
    (h0 : ¬ p 0) : ScansThat text p := by
  cases text with
  | none => rw [no_file] at h; exact absurd h h0
  | some t =>
    refine ⟨t, rfl, ?_⟩
    rw [← Specfile.C39_count]
    exact h

theorem load_scans {kind : Kind} {strtod : Str → K} {s s' : State K} {main file : String} {text : Option Str}
    {subs : List Str} (h : load kind strtod s main file text = (.ok (), s')) (hsubs : subshellsOf main = some subs) :
    ScansThat text (fun c => c = subs.length) := by
  have hpos : 0 ≠ subs.length := by
    unfold subshellsOf at hsubs
    split_ifs at hsubs <;> (simp only [Option.some.injEq] at hsubs; subst hsubs; decide)
  refine scansThat ?_ hpos
  by_contra hne
  have := (Loader.loadRefused kind strtod s main file text).2 subs hsubs (Or.inr hne)
  rw [h] at this
  cases this

theorem binding_scans {strtod : Str → K} {text : Option Str} {l : List (Scan K)}
    (h : bindingScans strtod text = .ok (some l)) : ScansThat text (fun c => c = 1) := by
  refine scansThat ?_ (by decide)
  unfold bindingScans at h
  dsimp only at h
  split_ifs at h with hn
  · cases h
  · exact not_not.1 hn

/-- **C124** The construction of a library succeeds only when the directory is not empty and all the files are there with
the number of scans they need: one for binding energies, 99 or more for cross sections, and one for each subshell in the
files of yields and rates. -/
theorem C124_required (on : Bool) (key : EscapeKey K) (strtod : Str → K) (fs : Files) (dir binding : String) (d : Database K)
    (h : setUp on key strtod fs dir binding = .ok d) :
    dir ≠ "" ∧
    ScansThat (fs (dir ++ "//" ++ "EADL97_BindingEnergies.dat")) (fun c => c = 1) ∧
    (binding ≠ "" → ScansThat (fs binding) (fun c => c = 1)) ∧
    ScansThat (fs (dir ++ "//" ++ "EPDL97_CrossSections.dat")) (fun c => 99 ≤ c) ∧
    ∀ main subshells, (main, subshells) ∈ [("K", 1), ("L", 3), ("M", 5)] → ∀ data ∈ ["Constants", "NonradiativeRates", "RadiativeRates"],
      ScansThat (fs (dir ++ "//" ++ "EADL97_" ++ main ++ "Shell" ++ data ++ ".dat")) (fun c => c = subshells) := by
  obtain ⟨epdl, els, s, h1, h2, _, h4, _, _, _⟩ := setUp_ok h
  obtain ⟨bf, cf, hd, b1, b2, b3⟩ := loadEpdl_ok h1
  obtain ⟨bs, _, _, scans, rfl, _, _, _, rfl, _⟩ := EPDL97.load_parts (congrArg Prod.fst b3)
  refine ⟨hd, binding_scans b1, fun hb => ?_, ?_, ?_⟩
  · unfold otherBinding at h2
    have h0 : binding.toList.length > 0 := by
      rw [gt_iff_lt, List.length_pos_iff]
      intro h'
      exact hb (String.toList_inj.1 (by simpa using h'))
    rw [if_pos h0] at h2
    obtain ⟨b, c1, h2⟩ := Outcome.bind_eq_ok.1 h2
    obtain ⟨u, c2, h2⟩ := Outcome.bind_eq_ok.1 h2
    cases b with
    | none => unfold EPDL97.loadBindingEnergies at c2; cases c2
    | some l => exact binding_scans c1
  · refine scansThat ?_ (by decide)
    obtain ⟨_, _, l3⟩ := EPDL97.load_length (congrArg Prod.fst b3)
    rw [(crossScans_ok b2).1]
    exact l3
  · have key : ∀ (kind : Kind) (main : String) (subs : List Str), subshellsOf main = some subs →
        ScansThat (fs (dir ++ "//" ++ fileOf kind main)) (fun c => c = subs.length) := by
      intro kind main subs hsubs
      obtain ⟨sub, hsub⟩ : ∃ sub, sub ∈ subs := by
        unfold subshellsOf at hsubs
        split_ifs at hsubs <;> (simp only [Option.some.injEq] at hsubs; subst hsubs; exact ⟨_, List.mem_cons_self⟩)
      obtain ⟨s1, s2, g1, _⟩ := loadFiles_one hsubs hsub shellFiles _ _ h4 shellFiles_nodup (shellFiles_mem hsubs kind)
      exact load_scans g1 hsubs
    intro main subshells hm data hdata
    have hsub : ∃ subs, subshellsOf main = some subs ∧ subs.length = subshells := by
      simp only [List.mem_cons, Prod.mk.injEq, List.not_mem_nil, or_false] at hm
      rcases hm with ⟨rfl, rfl⟩ | ⟨rfl, rfl⟩ | ⟨rfl, rfl⟩ <;> exact ⟨_, rfl, rfl⟩
    obtain ⟨subs, hs1, rfl⟩ := hsub
    have hfile : ∃ kind, dir ++ "//" ++ "EADL97_" ++ main ++ "Shell" ++ data ++ ".dat" = dir ++ "//" ++ fileOf kind main := by
      simp only [List.mem_cons, List.not_mem_nil, or_false] at hdata
      rcases hdata with rfl | rfl | rfl
      · exact ⟨.constants, by unfold fileOf; simp only [String.append_assoc]; rfl⟩
      · exact ⟨.nonradiative, by unfold fileOf; simp only [String.append_assoc]; rfl⟩
      · exact ⟨.radiative, by unfold fileOf; simp only [String.append_assoc]; rfl⟩
    obtain ⟨kind, hk⟩ := hfile
    rw [hk]
    exact key kind main subs hs1

/-- **C124** An empty name of a directory: the constructor with a single argument takes the directory of the installation,
the other ones throw. -/
theorem C124_empty [Trans K] (on : Bool) (key : EscapeKey K) (strtod : Str → K) (fs : Files) (dataDir binding cross : String)
    (pymca : Bool) :
    construct1 on key strtod fs dataDir "" = construct1 on key strtod fs dataDir dataDir ∧
    construct2 on key strtod fs "" pymca = .throw .outOfRange ∧
    construct3 on key strtod fs "" binding cross = .throw .outOfRange := by
  refine ⟨?_, rfl, rfl⟩
  unfold construct1
  simp only [String.toList_empty, List.length_nil, Nat.lt_add_one, ↓reduceIte]
  split_ifs with h0
  · rfl
  · rfl

/-! ## C125: the library with the data of PyMca -/

section
variable [Trans K]

/-- What an element keeps when coefficients are installed: its shells, its number, its binding energies. -/
theorem install_frame {epdl : EPDL97 K} {e : Element K} {energy photo coherent compton pair : List K}
    (h : (e.install epdl energy photo coherent compton pair).1 = .ok ()) :
    (e.install epdl energy photo coherent compton pair).2.shells = e.shells ∧
    (e.install epdl energy photo coherent compton pair).2.atomicNumber = e.atomicNumber ∧
    ∀ s, Element.at0 (e.install epdl energy photo coherent compton pair).2.binding s = Element.at0 e.binding s := by
  obtain ⟨t, h1, h2, h3, h4⟩ := Element.install_ok h
  obtain ⟨j, edges, ms, T, -, a2, -, -, -, -, -, -, -, -, a11, a12, -⟩ := Element.adapt_ok h3
  rw [h4, a12]
  have hx : (((e.setAll t).2.extractEdges energy photo).2.shells = (e.setAll t).2.shells) ∧
      ((e.setAll t).2.extractEdges energy photo).2.atomicNumber = (e.setAll t).2.atomicNumber ∧
      ∀ s, Element.at0 ((e.setAll t).2.extractEdges energy photo).2.binding s = Element.at0 (e.setAll t).2.binding s := by
    unfold Element.extractEdges
    split_ifs
    · exact ⟨rfl, rfl, fun _ => rfl⟩
    · exact ⟨rfl, rfl, fun _ => rfl⟩
    · exact ⟨rfl, rfl, fun _ => rfl⟩
    · exact ⟨rfl, rfl, fun _ => rfl⟩
    · exact ⟨rfl, rfl, fun s => Element.pairShells_at0 _ _ _ _ s⟩
  have o1 := Element.setAll_ok a11
  have o2 := Element.setAll_ok h2
  refine ⟨by rw [setAll_shells a11, hx.1, setAll_shells h2], by rw [o1.2.2.2.2.2.1, hx.2.1, o2.2.2.2.2.2.1], fun s => ?_⟩
  rw [o1.2.2.2.2.2.2.2.2.2.1 s, hx.2.2 s, o2.2.2.2.2.2.2.2.2.2.1 s]

theorem setUp_named {on : Bool} {key : EscapeKey K} {strtod : Str → K} {fs : Files} {dir binding : String} {d : Database K}
    (h : setUp on key strtod fs dir binding = .ok d) : Library.Named d.lib := by
  intro n e he
  obtain ⟨epdl, els, s, _, _, h3, h4, h5, _, _⟩ := setUp_ok h
  have hlen : d.lib.elements.length = defaultElements.length := by
    rw [h5]
    exact ((loadFiles_only _ _ _ _ _ _ h4).length_eq.symm.trans h3.length_eq.symm)
  have hn : n < defaultElements.length := by
    rw [← hlen]; exact (List.getElem?_eq_some_iff.1 he).1
  have hi := List.getElem?_eq_getElem hn
  obtain ⟨a, e', hma, hae, he', _⟩ := setUp_element h hi
  rw [he] at he'
  obtain rfl := Option.some.inj he'
  obtain ⟨_, _, _, _, _, _, _, _, _, hname, _⟩ := makeElement_ok hma
  rw [hae.name, hname, h5]
  exact (table_at hi).1

/-- The library after a file of cross sections, element by element. -/
theorem cross_frame {strtod : Str → K} {fs : Files} {file : String} {d d1 : Database K}
    (h : withCrossSections strtod fs file d = .ok d1) (hN : Library.Named d.lib) :
    d1.lib.dict = d.lib.dict ∧ d1.lib.materials = d.lib.materials ∧ d1.epdl = d.epdl ∧ d1.periodic = d.periodic ∧
    d1.files = d.files ∧
    ∀ (n : Nat) (e : LibElement K), d.lib.elements[n]? = some e → ∃ e1, d1.lib.elements[n]? = some e1 ∧ e1.name = e.name ∧
      e1.mass = e.mass ∧ e1.data.atomicNumber = e.data.atomicNumber ∧ e1.data.shells = e.data.shells ∧
      ∀ s, Element.at0 e1.data.binding s = Element.at0 e.data.binding s := by
  unfold withCrossSections at h
  obtain ⟨u, h1, h⟩ := Outcome.bind_eq_ok.1 h
  cases h
  have hc := Library.C109_scans d.epdl strtod d.lib (fs file) hN h1
  simp only at hc
  obtain ⟨_, c2, c3, c4, c5, c6, _⟩ := hc
  refine ⟨c5, c6, rfl, rfl, rfl, fun n e he => ?_⟩
  rcases lt_or_ge n ((Specfile.File.ofText (fs file)).lines.filter Specfile.isScan).length with hn | hn
  · obtain ⟨e', t, g1, g2, g3, g4⟩ := c3 n hn
    rw [he] at g1
    obtain rfl := Option.some.inj g1
    obtain ⟨f1, f2, f3⟩ := install_frame g3
    exact ⟨_, g4, rfl, rfl, f2, f1, f3⟩
  · exact ⟨e, by rw [← he]; exact c4 n hn, rfl, rfl, rfl, rfl, fun _ => rfl⟩

theorem construct2_ok {on : Bool} {key : EscapeKey K} {strtod : Str → K} {fs : Files} {dir : String} {d : Database K}
    (h : construct2 on key strtod fs dir true = .ok d) : ∃ d0 d1 s, dir ≠ "" ∧
      setUp on key strtod fs dir (dir ++ "//" ++ "BindingEnergies.dat") = .ok d0 ∧
      withCrossSections strtod fs (dir ++ "//" ++ "XCOM_CrossSections.dat") d0 = .ok d1 ∧
      loadFiles strtod fs dir pymcaFiles { elements := d1.lib.elements, files := d1.files } = .ok s ∧
      d = { d1 with lib := { d1.lib with elements := s.elements }, files := s.files } := by
  unfold construct2 at h
  obtain ⟨p, h1, h⟩ := Outcome.bind_eq_ok.1 h
  rw [if_pos rfl] at h
  obtain ⟨q, h2, h⟩ := Outcome.bind_eq_ok.1 h
  obtain ⟨d0, h3, h⟩ := Outcome.bind_eq_ok.1 h
  obtain ⟨d1, h4, h⟩ := Outcome.bind_eq_ok.1 h
  obtain ⟨s, h5, h⟩ := Outcome.bind_eq_ok.1 h
  cases h
  obtain ⟨hd, rfl⟩ := pathOf_ok h1
  obtain ⟨_, rfl⟩ := pathOf_ok h2
  exact ⟨d0, d1, s, hd, h3, h4, h5, rfl⟩

theorem getElement_at {L : Library K} {n : Nat} {x : String} {e : LibElement K} (h0 : x.length ≠ 0)
    (h1 : L.dict.find? x = some n) (h2 : L.elements[n]? = some e) : L.getElement x = .ok e := by
  unfold Library.getElement Library.isElementNameDefined
  have hm : SMap.mem L.dict x = true := by
    unfold SMap.mem
    rw [h1]; rfl
  rw [if_neg h0, if_pos hm, h1]
  simp only [vget, h2]

/-- The element in the library before and after the data of PyMca. -/
theorem pymca_element {on : Bool} {key : EscapeKey K} {strtod : Str → K} {fs : Files} {dir : String} {d d0 d1 : Database K}
    {s : State K} (h0 : setUp on key strtod fs dir (dir ++ "//" ++ "BindingEnergies.dat") = .ok d0)
    (h1 : withCrossSections strtod fs (dir ++ "//" ++ "XCOM_CrossSections.dat") d0 = .ok d1)
    (h2 : loadFiles strtod fs dir pymcaFiles { elements := d1.lib.elements, files := d1.files } = .ok s)
    (hd : d = { d1 with lib := { d1.lib with elements := s.elements }, files := s.files }) {n : Nat} {i : Info}
    (hi : defaultElements[n]? = some i) : ∃ e0 e1 e, d0.lib.getElement i.symbol = .ok e0 ∧
      d1.lib.getElement i.symbol = .ok e1 ∧ d.lib.getElement i.symbol = .ok e ∧
      d1.lib.elements[n]? = some e1 ∧ s.elements[n]? = some e ∧ OnlyShells Element.keys e1 e ∧ e1.mass = e0.mass ∧
      e1.data.atomicNumber = e0.data.atomicNumber ∧ e1.data.shells = e0.data.shells ∧
      ∀ k, Element.at0 e1.data.binding k = Element.at0 e0.data.binding k := by
  obtain ⟨a, e0, _, _, he0, hg0⟩ := setUp_element h0 hi
  obtain ⟨c1, c2, c3, c4, c5, c6⟩ := cross_frame h1 (setUp_named h0)
  obtain ⟨e1, g1, g2, g3, g4, g5, g6⟩ := c6 n e0 he0
  obtain ⟨e, f1, f2⟩ := forall₂_get (loadFiles_only _ _ _ _ _ _ h2) g1
  obtain ⟨t1, t2, _⟩ := table_at hi
  obtain ⟨_, _, _, _, _, _, _, hlib, _, _⟩ := setUp_ok h0
  have hdict : d1.lib.dict.find? i.symbol = some n := by rw [c1, hlib]; exact t1
  refine ⟨e0, e1, e, hg0, getElement_at t2 hdict g1, ?_, g1, f1, f2, g3, g4, g5, g6⟩
  rw [hd]
  exact getElement_at (L := { d1.lib with elements := s.elements }) t2 hdict f1

/-- The name of the file of PyMca. -/
def pymcaFile : Kind → String → String
  | .constants, main => main ++ "ShellConstants.dat"
  | .radiative, main => main ++ "ShellRates.dat"
  | .nonradiative, _ => ""

theorem pymcaFiles_mem {main : String} {subs : List Str} (h : subshellsOf main = some subs) (kind : Kind)
    (hk : kind ≠ .nonradiative) : (kind, main, pymcaFile kind main) ∈ pymcaFiles := by
  unfold subshellsOf at h
  split_ifs at h with h1 h2 h3
  · subst h1; cases kind <;> first | decide | exact absurd rfl hk
  · subst h2; cases kind <;> first | decide | exact absurd rfl hk
  · subst h3; cases kind <;> first | decide | exact absurd rfl hk

theorem pymcaFiles_nodup : (pymcaFiles.map (fun x => (x.1, x.2.1))).Nodup := by decide

theorem pymcaFiles_no (main : String) : (Kind.nonradiative, main) ∉ pymcaFiles.map (fun x => (x.1, x.2.1)) := by
  unfold pymcaFiles
  simp

/-- The map of a subshell before and after the data of PyMca. -/
theorem pymca_view {on : Bool} {key : EscapeKey K} {strtod : Str → K} {fs : Files} {dir : String} {d d0 d1 : Database K}
    {s : State K} (h0 : setUp on key strtod fs dir (dir ++ "//" ++ "BindingEnergies.dat") = .ok d0)
    (h1 : withCrossSections strtod fs (dir ++ "//" ++ "XCOM_CrossSections.dat") d0 = .ok d1)
    (h2 : loadFiles strtod fs dir pymcaFiles { elements := d1.lib.elements, files := d1.files } = .ok s)
    (hd : d = { d1 with lib := { d1.lib with elements := s.elements }, files := s.files }) {n : Nat} {i : Info}
    (hi : defaultElements[n]? = some i) {kind : Kind} (hkind : kind ≠ .nonradiative)
    {main : String} {subs : List Str} (hsubs : subshellsOf main = some subs) {k : Nat} {sub : Str} (hk : subs[k]? = some sub) :
    ∃ (scan : Scan K) (e0 e : LibElement K), FileScan strtod (fs (dir ++ "//" ++ pymcaFile kind main)) k scan ∧
      d0.lib.getElement i.symbol = .ok e0 ∧ d.lib.getElement i.symbol = .ok e ∧
      (∀ k, Element.at0 e.data.binding k = Element.at0 e0.data.binding k) ∧
      (scan.rows[n]? = none → view kind sub e.data = view kind sub e0.data) ∧
      ∀ row, scan.rows[n]? = some row → ∃ x y, kind.apply sub x (columns kind scan.labels row) = (.ok (), y) ∧
        view kind sub x = view kind sub e0.data ∧ view kind sub y = view kind sub e.data ∧
        ∀ k, Element.at0 x.binding k = Element.at0 e0.data.binding k := by
  obtain ⟨e0, e1, e, p1, p2, p3, p4, p5, p6, p7, p8, p9, p10⟩ := pymca_element h0 h1 h2 hd hi
  have hsub := List.mem_of_getElem? hk
  obtain ⟨s1, s2, g1, g2⟩ := loadFiles_one hsubs hsub pymcaFiles _ _ h2 pymcaFiles_nodup (pymcaFiles_mem hsubs kind hkind)
  obtain ⟨ea, eb, e', c1, c2, c3, c4, c5, c6, c7⟩ := g2 n e1 p4
  rw [p5] at c3
  obtain rfl := Option.some.inj c3
  have hv : view kind sub e1.data = view kind sub e0.data := by unfold view; rw [p9]
  obtain ⟨scan, f1, f2⟩ := load_at g1 hsubs hk
  obtain ⟨q1, q2⟩ := f2 n ea eb c1 c2
  refine ⟨scan, e0, e, f1, p1, p3, fun k => by rw [c7]; exact p10 k, fun hr => ?_, fun row hr => ?_⟩
  · rw [c5, q1 hr, c4, hv]
  · obtain ⟨x, y, r1, r2, r3, r4⟩ := q2 row hr
    exact ⟨x, y, r1, (r2.trans c4).trans hv, r3.trans c5.symm, fun k => by rw [r4, c6]; exact p10 k⟩

theorem getShell_congr {kind : Kind} {e e0 : Element K} {sub : Str} (h : view kind sub e = view kind sub e0) :
    (do let s ← getShell e sub; return field kind s : Outcome (SMap Str K)) =
      (do let s ← getShell e0 sub; return field kind s) := by
  unfold view at h
  unfold getShell
  cases h1 : e.shells.find? sub with
  | none =>
    cases h2 : e0.shells.find? sub with
    | none => rfl
    | some b => rw [h1, h2] at h; cases h
  | some a =>
    cases h2 : e0.shells.find? sub with
    | none => rw [h1, h2] at h; cases h
    | some b =>
      rw [h1, h2] at h
      simp only [Outcome.ok_bind, Outcome.pure_eq]
      exact congrArg Outcome.ok (Option.some.inj h)

/-- **C125** The library with the data of PyMca is the library of the directory with the binding energies of
`BindingEnergies.dat`, with other attenuation coefficients, yields and radiative rates: the elements, what the table of
elements says of them, their binding energies and their nonradiative rates are the same. -/
theorem C125_kept (on : Bool) (key : EscapeKey K) (strtod : Str → K) (fs : Files) (dir : String) (d : Database K)
    (h : construct2 on key strtod fs dir true = .ok d) :
    ∃ d0, setUp on key strtod fs dir (dir ++ "//" ++ "BindingEnergies.dat") = .ok d0 ∧
      d.lib.getElementNames = d0.lib.getElementNames ∧ d.lib.getMaterialNames = d0.lib.getMaterialNames ∧
      ∀ x ∈ defaultElements.map Info.symbol,
        getAtomicNumber d x = getAtomicNumber d0 x ∧ getAtomicMass d x = getAtomicMass d0 x ∧
        getLongName d x = getLongName d0 x ∧ getRow d x = getRow d0 x ∧ getColumn d x = getColumn d0 x ∧
        getDensity d x = getDensity d0 x ∧
        (∃ b b0, getBindingEnergies d x = .ok b ∧ getBindingEnergies d0 x = .ok b0 ∧
          ∀ s, Element.at0 b s = Element.at0 b0 s) ∧
        ∀ s ∈ Element.keys, getNonradiativeTransitions d x s = getNonradiativeTransitions d0 x s := by
  obtain ⟨d0, d1, s, _, h0, h1, h2, hd⟩ := construct2_ok h
  obtain ⟨c1, c2, c3, c4, c5, c6⟩ := cross_frame h1 (setUp_named h0)
  refine ⟨d0, h0, ?_, ?_, fun x hx => ?_⟩
  · unfold Library.getElementNames
    have hlen : d1.lib.elements.length = d0.lib.elements.length := by
      unfold withCrossSections at h1
      obtain ⟨u, g1, g2⟩ := Outcome.bind_eq_ok.1 h1
      cases g2
      have hc := Library.C109_scans d0.epdl strtod d0.lib _ (setUp_named h0) g1
      simp only at hc
      obtain ⟨_, k2, k3, k4, _⟩ := hc
      refine Nat.le_antisymm ?_ ?_
      · by_contra hlt
        push Not at hlt
        have := k4 d0.lib.elements.length k2
        rw [List.getElem?_eq_none (Nat.le_refl _)] at this
        rw [List.getElem?_eq_none_iff] at this
        exact absurd hlt (Nat.not_lt.2 this)
      · by_contra hlt
        push Not at hlt
        obtain ⟨e1, q1, _⟩ := c6 _ _ (List.getElem?_eq_getElem hlt)
        have := (List.getElem?_eq_some_iff.1 q1).1
        simp at this
    apply List.ext_getElem?
    intro n
    rw [List.getElem?_map, List.getElem?_map, hd]
    simp only
    have hl2 := (loadFiles_only _ _ _ _ _ _ h2).length_eq
    simp only at hl2
    rcases lt_or_ge n d0.lib.elements.length with hn | hn
    · obtain ⟨e1, q1, q2, _⟩ := c6 _ _ (List.getElem?_eq_getElem hn)
      obtain ⟨e, f1, f2⟩ := forall₂_get (loadFiles_only _ _ _ _ _ _ h2) q1
      rw [f1, List.getElem?_eq_getElem hn, Option.map_some, Option.map_some, f2.name, q2]
    · rw [List.getElem?_eq_none (by omega), List.getElem?_eq_none hn]
  · unfold Library.getMaterialNames
    rw [hd]
    simp only [c2]
  · obtain ⟨i, hi', rfl⟩ := List.mem_map.1 hx
    obtain ⟨n, hi⟩ := List.mem_iff_getElem?.1 hi'
    obtain ⟨e0, e1, e, p1, p2, p3, p4, p5, p6, p7, p8, p9, p10⟩ := pymca_element h0 h1 h2 hd hi
    have hper : periodicOf d i.symbol = periodicOf d0 i.symbol := by
      rw [hd]
      unfold periodicOf Library.isElementNameDefined
      simp only [c1, c4]
    refine ⟨?_, ?_, ?_, ?_, ?_, ?_, ?_, ?_⟩
    · unfold getAtomicNumber
      rw [p1, p3]
      simp only [Outcome.ok_bind, p6.number, p8]
    · unfold getAtomicMass
      rw [p1, p3]
      simp only [Outcome.ok_bind, p6.mass, p7]
    · unfold getLongName; rw [hper]
    · unfold getRow; rw [hper]
    · unfold getColumn; rw [hper]
    · unfold getDensity; rw [hper]
    · refine ⟨e.data.binding, e0.data.binding, ?_, ?_, fun s => ?_⟩
      · unfold getBindingEnergies; rw [p3]; rfl
      · unfold getBindingEnergies; rw [p1]; rfl
      · rw [p6.binding]; exact p10 s
    · intro sub hs
      have hmain : ∃ main subs, subshellsOf main = some subs ∧ sub ∈ subs := by
        have : ∀ k ∈ Element.keys, k ∈ ["K".toList] ∨ k ∈ ["L1".toList, "L2".toList, "L3".toList] ∨
            k ∈ ["M1".toList, "M2".toList, "M3".toList, "M4".toList, "M5".toList] := by decide
        rcases this sub hs with h' | h' | h'
        · exact ⟨"K", _, rfl, h'⟩
        · exact ⟨"L", _, rfl, h'⟩
        · exact ⟨"M", _, rfl, h'⟩
      obtain ⟨main, subs, m1, m2⟩ := hmain
      obtain ⟨e', f1, f2, _⟩ := loadFiles_frame (kind := .nonradiative) m1 m2 pymcaFiles _ _ h2 (pymcaFiles_no main) n e1 p4
      rw [p5] at f1
      obtain rfl := Option.some.inj f1
      unfold getNonradiativeTransitions
      rw [p1, p3]
      simp only [Outcome.ok_bind]
      exact getShell_congr (kind := .nonradiative) (f2.trans (by unfold view; rw [p9]))

/-- **C125** The yields are those of row `n` of scan `k` of the file of PyMca, and those of the former library for the
names that have no column or the elements that have no row. -/
theorem C125_yields (on : Bool) (key : EscapeKey K) (strtod : Str → K) (fs : Files) (dir : String) (d d0 : Database K)
    (h : construct2 on key strtod fs dir true = .ok d)
    (h0 : setUp on key strtod fs dir (dir ++ "//" ++ "BindingEnergies.dat") = .ok d0) (n : Nat) (i : Info)
    (hi : defaultElements[n]? = some i) (main : String) (subs : List Str) (hsubs : Loader.HasSubshells main subs) (k : Nat)
    (sub : Str) (hk : subs[k]? = some sub) :
    ∃ scan : Scan K, FileScan strtod (fs (dir ++ "//" ++ main ++ "ShellConstants.dat")) k scan ∧
      (scan.rows[n]? = none → getShellConstants d i.symbol sub = getShellConstants d0 i.symbol sub) ∧
      ∀ row, scan.rows[n]? = some row → ∃ c c0, getShellConstants d i.symbol sub = .ok c ∧
        getShellConstants d0 i.symbol sub = .ok c0 ∧
        ∀ y, c.find? y = match (columns .constants scan.labels row).find? y with
          | some v => some v
          | none => c0.find? y := by
  replace hsubs := Loader.has_iff.1 hsubs
  obtain ⟨d0', d1, s, _, h0', h1, h2, hd⟩ := construct2_ok h
  rw [h0] at h0'
  obtain rfl := Outcome.ok.inj h0'
  obtain ⟨scan, e0, e, p1, p2, p3, p4, p5, p6⟩ := pymca_view h0 h1 h2 hd hi (kind := .constants) (by decide) hsubs hk
  refine ⟨scan, ?_, fun hr => ?_, fun row hr => ?_⟩
  · rw [show dir ++ "//" ++ main ++ "ShellConstants.dat" = dir ++ "//" ++ pymcaFile .constants main by
      unfold pymcaFile; simp only [String.append_assoc]]
    exact p1
  · unfold getShellConstants
    rw [p2, p3]
    simp only [Outcome.ok_bind]
    exact getShell_congr (kind := .constants) (p5 hr)
  · obtain ⟨x, y, q1, q2, q3, q4⟩ := p6 row hr
    obtain ⟨c0, c, r1, r2, r3⟩ := apply_constants q1 (SMap.ofList_sorted _)
    rw [q2] at r1
    rw [q3] at r2
    obtain ⟨s0, t1, t2⟩ := getShell_view r1
    obtain ⟨s1, u1, u2⟩ := getShell_view r2
    refine ⟨c, c0, ?_, ?_, fun y => ?_⟩
    · unfold getShellConstants
      rw [p3]
      simp only [Outcome.ok_bind, u1, Outcome.pure_eq]
      exact congrArg Outcome.ok u2
    · unfold getShellConstants
      rw [p2]
      simp only [Outcome.ok_bind, t1, Outcome.pure_eq]
      exact congrArg Outcome.ok t2
    · rw [r3]
      cases (columns .constants scan.labels row).find? y <;> rfl

/-- **C125** The radiative rates of a subshell with a positive binding energy are those of row `n` of scan `k` of the file of
PyMca and no others; they are those of the former library for the other subshells and the elements that have no row. -/
theorem C125_radiative (on : Bool) (key : EscapeKey K) (strtod : Str → K) (fs : Files) (dir : String) (d d0 : Database K)
    (h : construct2 on key strtod fs dir true = .ok d)
    (h0 : setUp on key strtod fs dir (dir ++ "//" ++ "BindingEnergies.dat") = .ok d0) (n : Nat) (i : Info)
    (hi : defaultElements[n]? = some i) (main : String) (subs : List Str) (hsubs : Loader.HasSubshells main subs) (k : Nat)
    (sub : Str) (hk : subs[k]? = some sub) :
    ∃ (scan : Scan K) (b : SMap Str K), FileScan strtod (fs (dir ++ "//" ++ main ++ "ShellRates.dat")) k scan ∧
      getBindingEnergies d i.symbol = .ok b ∧
      (scan.rows[n]? = none ∨ Element.at0 b sub ≤ 0 →
        getRadiativeTransitions d i.symbol sub = getRadiativeTransitions d0 i.symbol sub) ∧
      ∀ row, scan.rows[n]? = some row → 0 < Element.at0 b sub → ∃ c, getRadiativeTransitions d i.symbol sub = .ok c ∧
        Kept lineName (columns .radiative scan.labels row) c := by
  replace hsubs := Loader.has_iff.1 hsubs
  obtain ⟨d0', d1, s, _, h0', h1, h2, hd⟩ := construct2_ok h
  rw [h0] at h0'
  obtain rfl := Outcome.ok.inj h0'
  obtain ⟨scan, e0, e, p1, p2, p3, p4, p5, p6⟩ := pymca_view h0 h1 h2 hd hi (kind := .radiative) (by decide) hsubs hk
  refine ⟨scan, e.data.binding, ?_, by unfold getBindingEnergies; rw [p3]; rfl, fun hr => ?_, fun row hr hb => ?_⟩
  · rw [show dir ++ "//" ++ main ++ "ShellRates.dat" = dir ++ "//" ++ pymcaFile .radiative main by
      unfold pymcaFile; simp only [String.append_assoc]]
    exact p1
  · have : view .radiative sub e.data = view .radiative sub e0.data := by
      cases hrow : scan.rows[n]? with
      | none => exact p5 hrow
      | some row =>
        rw [hrow] at hr
        have hb : Element.at0 e.data.binding sub ≤ 0 := by simpa using hr
        obtain ⟨x, y, q1, q2, q3, q4⟩ := p6 row hrow
        rw [← q3, ← q2]
        exact (apply_radiative q1 (SMap.ofList_sorted _)).1 (by rw [q4, ← p4]; exact hb)
    unfold getRadiativeTransitions
    rw [p2, p3]
    simp only [Outcome.ok_bind]
    exact getShell_congr (kind := .radiative) this
  · obtain ⟨x, y, q1, q2, q3, q4⟩ := p6 row hr
    obtain ⟨c, r1, r2⟩ := (apply_radiative q1 (SMap.ofList_sorted _)).2 (by rw [q4, ← p4]; exact hb)
    rw [q3] at r1
    obtain ⟨s1, u1, u2⟩ := getShell_view r1
    refine ⟨c, ?_, r2⟩
    unfold getRadiativeTransitions
    rw [p3]
    simp only [Outcome.ok_bind, u1, Outcome.pure_eq]
    exact congrArg Outcome.ok u2

/-- **C125** The mass attenuation coefficients are those of `XCOM_CrossSections.dat`, adapted to the binding energies of the
element and extended to low energies as by a call with the same values (C107 to C109), for the elements that have a scan
(there cannot be more scans than elements); for the other elements they are those of EPDL97. -/
theorem C125_coefficients (on : Bool) (key : EscapeKey K) (strtod : Str → K) (fs : Files) (dir : String) (d d0 : Database K)
    (h : construct2 on key strtod fs dir true = .ok d)
    (h0 : setUp on key strtod fs dir (dir ++ "//" ++ "BindingEnergies.dat") = .ok d0) :
    let text := fs (dir ++ "//" ++ "XCOM_CrossSections.dat")
    let count := ((Specfile.File.ofText text).lines.filter Specfile.isScan).length
    1 ≤ count ∧ count ≤ defaultElements.length ∧ ∀ (n : Nat) (i : Info), defaultElements[n]? = some i →
      (n < count → ∃ e0 t, d0.lib.getElement i.symbol = .ok e0 ∧
        Library.fileTable strtod (Specfile.setFileName (Specfile.File.ofText text)) n = .ok t ∧
        (e0.data.install d0.epdl t.energy t.photo t.coherent t.compton t.pair).1 = .ok () ∧
        getCoefficientTable d i.symbol =
          .ok (coefficientTable (e0.data.install d0.epdl t.energy t.photo t.coherent t.compton t.pair).2)) ∧
      (count ≤ n → getCoefficientTable d i.symbol = getCoefficientTable d0 i.symbol) := by
  intro text count
  obtain ⟨d0', d1, s, _, h0', h1, h2, hd⟩ := construct2_ok h
  rw [h0] at h0'
  obtain rfl := Outcome.ok.inj h0'
  have hN := setUp_named h0
  have h1' := h1
  unfold withCrossSections at h1
  obtain ⟨u, g1, g2⟩ := Outcome.bind_eq_ok.1 h1
  have hc := Library.C109_scans d0.epdl strtod d0.lib _ hN g1
  simp only at hc
  obtain ⟨k1, k2, k3, k4, _⟩ := hc
  obtain ⟨epdl, els, st, _, _, a3, a4, a5, _, _⟩ := setUp_ok h0
  have hlen : d0.lib.elements.length = defaultElements.length := by
    rw [a5]
    exact ((loadFiles_only _ _ _ _ _ _ a4).length_eq.symm.trans a3.length_eq.symm)
  refine ⟨k1, by rw [← hlen]; exact k2, fun n i hi => ?_⟩
  obtain ⟨e0, e1, e, p1, p2, p3, p4, p5, p6, p7, p8, p9, p10⟩ := pymca_element h0 h1' h2 hd hi
  obtain ⟨_, e0', _, _, he0, hg0⟩ := setUp_element h0 hi
  rw [p1] at hg0
  obtain rfl := Outcome.ok.inj hg0
  have hd1 : d1.lib = (Library.setMuFile d0.epdl strtod d0.lib text).2 := by
    have := Outcome.ok.inj g2
    rw [← this]
  have hco : getCoefficientTable d i.symbol = .ok (coefficientTable e1.data) := by
    unfold getCoefficientTable
    rw [p3]
    simp only [Outcome.ok_bind, Outcome.pure_eq]
    unfold coefficientTable
    rw [p6.table, p6.energies]
  rw [hd1] at p4
  refine ⟨fun hn => ?_, fun hn => ?_⟩
  · obtain ⟨e', t, q1, q2, q3, q4⟩ := k3 n hn
    rw [he0] at q1
    obtain rfl := Option.some.inj q1
    refine ⟨e0, t, p1, q2, q3, ?_⟩
    rw [hco]
    rw [show (Library.setMuFile d0.epdl strtod d0.lib text).2.elements[n]? = _ from q4] at p4
    rw [← Option.some.inj p4]
  · rw [show (Library.setMuFile d0.epdl strtod d0.lib text).2.elements[n]? = _ from k4 n hn, he0] at p4
    rw [hco]
    unfold getCoefficientTable
    rw [p1, ← Option.some.inj p4]
    rfl

end

end Init
end Fisx
