import Verif.Config
import Verif.IniProps

/-!
# Properties C42, C44, C64 and C65: the configuration
-/

set_option linter.unusedSectionVars false

namespace Fisx
namespace Config

variable {K R : Type} [Field K] [LinearOrder K]

/-! ## C42: sample and reference layer -/

/-- C42: a sample is accepted iff the reference layer is below the number of layers; then both are stored and nothing
else changes. Otherwise `invalid_argument` is thrown and the configuration is unchanged. -/
theorem C42_accepted_iff (c : Config K R) (layers : List (Layer K)) (ref : Int) :
    (ref < layers.length → c.setSample layers ref =
      (.ok (), { c with sample := layers, referenceLayer := some ref })) ∧
    ((layers.length : Int) ≤ ref → c.setSample layers ref = (.throw .invalidArgument, c)) := by
  unfold setSample
  constructor
  · intro h; rw [if_neg (by omega)]
  · intro h; rw [if_pos h]

/-- The calls that change a configuration (fisx_xrfconfig.h:51-123), with the reading of a file. -/
inductive Op (K R : Type)
  | setSample (layers : List (Layer K)) (ref : Int)
  | setGeometry (alphaIn alphaOut scatteringAngle : K)
  | setBeam (b : Beam K)
  | setBeamFilters (l : List (Layer K))
  | setUserBeamFilters (t : List (TransmissionTable K))
  | setAttenuators (l : List (Layer K))
  | setUserAttenuators (t : List (TransmissionTable K))
  | setDetector (d : Detector K R)
  | read (file : Option Str)

variable (setArea : Detector K R → K → Outcome Unit × Detector K R) (sort : List (Ray K) → List (Ray K)) (cv : Conv K)

/-- One call (fisx_xrfconfig.cpp:42-47, 49-512, 527-571). -/
def step (c : Config K R) : Op K R → Outcome Unit × Config K R
  | .setSample l r => c.setSample l r
  | .setGeometry a b s => (.ok (), c.setGeometry a b s)
  | .setBeam b => (.ok (), { c with beam := b })
  | .setBeamFilters l => (.ok (), { c with beamFilters := l })
  | .setUserBeamFilters t => (.ok (), { c with userBeamFilters := t })
  | .setAttenuators l => (.ok (), { c with attenuators := l })
  | .setUserAttenuators t => (.ok (), { c with userAttenuators := t })
  | .setDetector d => (.ok (), { c with detector := d })
  | .read f => read setArea sort cv c f

/-- A history, exceptions being caught by the caller. -/
def run (c : Config K R) (ops : List (Op K R)) : Config K R :=
  ops.foldl (fun c op => (step setArea sort cv c op).2) c

/-- The reference layer is one of the layers of the sample. -/
def Consistent (c : Config K R) : Prop := ∃ i : Nat, c.referenceLayer = some (i : Int) ∧ i < c.sample.length

/-- C42 is false: a negative reference layer is accepted; before any sample is set there is no reference layer. -/
theorem C42_negative_violated :
    (∃ (c : Config K R) (layers : List (Layer K)) (ref : Int), (c.setSample layers ref).1 = .ok () ∧
      ¬ Consistent (c.setSample layers ref).2) ∧
    ¬ Consistent (new : Config K R) := by
  refine ⟨⟨new, [], -1, ?_, ?_⟩, ?_⟩
  · unfold setSample; rw [if_neg (by simp)]
  · unfold setSample; rw [if_neg (by simp)]
    rintro ⟨i, hi, -⟩
    simp at hi
  · rintro ⟨i, hi, -⟩
    simp [new] at hi

/-- C42, the part that holds: after every history of calls, rejected ones included, without file reading and with
reference layers that are not negative, if some sample was accepted the reference layer is one of its layers. -/
theorem C42_consistent_partial (ops : List (Op K R))
    (hread : ∀ f, .read f ∉ ops) (hneg : ∀ l r, .setSample l r ∈ ops → 0 ≤ r) :
    let c := run setArea sort cv new ops
    (c.referenceLayer = none ∧ c.sample = [] ∧
      ∀ l r, .setSample l r ∈ ops → (l.length : Int) ≤ r) ∨ Consistent c := by
  have key : ∀ (ops : List (Op K R)) (c : Config K R),
      (∀ f, .read f ∉ ops) → (∀ l r, .setSample l r ∈ ops → 0 ≤ r) →
      (c.referenceLayer = none ∧ c.sample = [] ∨ Consistent c) →
      ((run setArea sort cv c ops).referenceLayer = none ∧ (run setArea sort cv c ops).sample = [] ∧
        ∀ l r, .setSample l r ∈ ops → (l.length : Int) ≤ r) ∨ Consistent (run setArea sort cv c ops) := by
    intro ops
    induction ops with
    | nil =>
      intro c _ _ h
      rcases h with h | h
      · exact Or.inl ⟨h.1, h.2, by simp⟩
      · exact Or.inr h
    | cons op t ih =>
      intro c hr hn h
      have hrun : run setArea sort cv c (op :: t) = run setArea sort cv (step setArea sort cv c op).2 t := rfl
      rw [hrun]
      have hr' : ∀ f, .read f ∉ t := fun f hf => hr f (List.mem_cons_of_mem _ hf)
      have hn' : ∀ l r, .setSample l r ∈ t → 0 ≤ r := fun l r hlr => hn l r (List.mem_cons_of_mem _ hlr)
      cases op with
      | setSample l r =>
        by_cases hlt : r < l.length
        · have hs := (C42_accepted_iff c l r).1 hlt
          have h0 := hn l r (List.mem_cons_self ..)
          have hc : Consistent (step setArea sort cv c (.setSample l r)).2 := by
            simp only [step, hs]
            exact ⟨r.toNat, by simp only [Option.some.injEq]; omega, by simp only; omega⟩
          rcases ih _ hr' hn' (Or.inr hc) with ⟨a, b, d⟩ | h'
          · exfalso
            -- once consistent, always consistent
            have hkeep : ∀ (ops : List (Op K R)) (c : Config K R), (∀ f, .read f ∉ ops) →
                c.referenceLayer ≠ none → (run setArea sort cv c ops).referenceLayer ≠ none := by
              intro ops
              induction ops with
              | nil => intro c _ h; exact h
              | cons op t ih =>
                intro c hr h
                refine ih (step setArea sort cv c op).2 (fun f hf => hr f (List.mem_cons_of_mem _ hf)) ?_
                cases op with
                | setSample l r =>
                  by_cases hlt : r < l.length
                  · simp only [step, (C42_accepted_iff c l r).1 hlt]; simp
                  · simp only [step, (C42_accepted_iff c l r).2 (by omega)]; exact h
                | read f => exact absurd (List.mem_cons_self ..) (hr f)
                | _ => exact h
            obtain ⟨i, hi, -⟩ := hc
            exact hkeep t _ hr' (by rw [hi]; simp) a
          · exact Or.inr h'
        · have hs := (C42_accepted_iff c l r).2 (by omega)
          have hstep : (step setArea sort cv c (.setSample l r)).2 = c := by simp only [step, hs]
          rw [hstep]
          rcases ih c hr' hn' h with ⟨a, b, d⟩ | h'
          · left
            refine ⟨a, b, ?_⟩
            intro l' r' hm
            rcases List.mem_cons.1 hm with hm | hm
            · cases hm; omega
            · exact d l' r' hm
          · exact Or.inr h'
      | read f => exact absurd (List.mem_cons_self ..) (hr f)
      | _ =>
        generalize hst : step setArea sort cv c _ = st
        have hkeep : st.2.referenceLayer = none ∧ st.2.sample = [] ∨ Consistent st.2 := by rw [← hst]; exact h
        rcases ih st.2 hr' hn' hkeep with ⟨a, b, d⟩ | h'
        · left
          refine ⟨a, b, ?_⟩
          intro l r hm
          rcases List.mem_cons.1 hm with hm | hm
          · cases hm
          · exact d l r hm
        · exact Or.inr h'
  exact key ops new hread hneg (Or.inl ⟨rfl, rfl⟩)

example : ((new : Config ℚ Unit).setSample [Layer.new "Steel" 7 1 1, Layer.new "Al" 3 1 1] 1).1 = .ok () := rfl

/-! ## The reading of a file -/

theorem andThen_ok {S : Type} {x : Outcome Unit × S} {f : S → Outcome Unit × S} {s' : S}
    (h : andThen x f = (.ok (), s')) : ∃ s, x = (.ok (), s) ∧ f s = (.ok (), s') := by
  obtain ⟨o, s⟩ := x
  cases o with
  | ok u => exact ⟨s, rfl, h⟩
  | throw e => simp [andThen] at h
  | ub u => simp [andThen] at h
  | diverge => simp [andThen] at h

theorem orKeep_ok {α S : Type} {x : Outcome α} {s s' : S} {f : α → Outcome Unit × S}
    (h : orKeep x s f = (.ok (), s')) : ∃ a, x = .ok a ∧ f a = (.ok (), s') := by
  cases x with
  | ok a => exact ⟨a, rfl, h⟩
  | throw e => simp [orKeep] at h
  | ub u => simp [orKeep] at h
  | diverge => simp [orKeep] at h

/-- What a successful reading has done. -/
structure ReadOk (c : Config K R) (file : Option Str) (c' : Config K R) (r0 r : Ini.Reader) (fit : SMap Str Str)
    (b : BeamLists K) (c1 : Config K R) (s : AttState K R) (sample : List (Layer K)) : Prop where
  ini : Ini.read Ini.new file = (.ok (), r0)
  hfit : fitSection r0 = (.ok fit, r)
  lists : beamLists cv fit = .ok b
  beam : Beam.setBeam sort c.beam b.energy b.weight b.scatter [] = (.ok (), c1.beam)
  materials : matLoop cv r (Ini.getSubsections r "Materials".toList false) MatVars.start [] = (.ok (), c1.materials)
  userFilters : tabLoop cv r (Ini.getSubsections r "UserBeamFilters".toList false)
    { comment := [], useFlag := 0, energy := [], transmission := [] } [] = (.ok (), c1.userBeamFilters)
  userAttenuators : tabLoop cv r (Ini.getSubsections r "UserAttenuators".toList false)
    { comment := [], useFlag := 0, energy := [], transmission := [] } [] = (.ok (), c1.userAttenuators)
  cleared : c1.beamFilters = [] ∧ c1.attenuators = [] ∧ c1.sample = [] ∧ c1.detector = defaultDetector
  att : attLoop cv (Ini.readSection r "attenuators".toList false).1 { config := c1, multilayer := false } = .ok s
  hsample : (if s.multilayer then layerLoop cv s.config.materials
      (Ini.readSection (Ini.readSection r "attenuators".toList false).2 "multilayer".toList false).1 s.config.sample
      else .ok s.config.sample) = .ok sample
  result : ∃ d, c' = { s.config with referenceLayer := some 0, sample := sample, detector := d }

theorem read_ok {c c' : Config K R} {file : Option Str} (h : read setArea sort cv c file = (.ok (), c')) :
    ∃ r0 r fit b c1 s sample, ReadOk sort cv c file c' r0 r fit b c1 s sample := by
  unfold read at h
  split at h
  · simp at h
  · simp at h
  · simp at h
  · next r0 hr0 =>
    dsimp only at h
    obtain ⟨fit, hfit, h⟩ := orKeep_ok h
    obtain ⟨b, hb, h⟩ := orKeep_ok h
    obtain ⟨c1, hc1, h⟩ := andThen_ok h
    obtain ⟨c2, hc2, h⟩ := andThen_ok h
    obtain ⟨c3, hc3, h⟩ := andThen_ok h
    obtain ⟨c4, hc4, h⟩ := andThen_ok h
    obtain ⟨s, hs, h⟩ := orKeep_ok h
    obtain ⟨sample, hsample, h⟩ := orKeep_ok h
    simp only [Prod.mk.injEq] at hc1 hc2 hc3 hc4 h
    obtain ⟨h1a, h1b⟩ := hc1
    obtain ⟨h2a, h2b⟩ := hc2
    obtain ⟨h3a, h3b⟩ := hc3
    obtain ⟨h4a, h4b⟩ := hc4
    obtain ⟨-, hfin⟩ := h
    refine ⟨r0, (fitSection r0).2, fit, b, { c4 with beamFilters := [], attenuators := [], sample := [], detector := defaultDetector }, s, sample, hr0, ?_, hb, ?_, ?_, ?_, ?_, ?_, hs, hsample, ⟨_, hfin.symm⟩⟩
    · rw [← hfit]
    · subst h4b h3b h2b h1b; exact Prod.ext h1a rfl
    · subst h4b h3b h2b; exact Prod.ext h2a rfl
    · subst h4b h3b; exact Prod.ext h3a rfl
    · subst h4b; exact Prod.ext h4a rfl
    · exact ⟨rfl, rfl, rfl, rfl⟩

/-- Looking for the beam does not change what the sections contain. -/
theorem fitSection_same {r0 r : Ini.Reader} {fit : SMap Str Str} (h : fitSection r0 = (.ok fit, r)) :
    Ini.getSections r = Ini.getSections r0 ∧
    ∀ name, (Ini.readSection r name true).1 = (Ini.readSection r0 name true).1 := by
  unfold fitSection at h
  dsimp only at h
  split at h
  · simp only [Prod.mk.injEq] at h
    rw [← h.2]
    exact ⟨(Ini.C37_read_only r0 _ _ []).1, fun n => (Ini.C37_read_only r0 _ _ n).2⟩
  · split at h
    · simp only [Prod.mk.injEq] at h
      rw [← h.2]
      refine ⟨(Ini.C37_read_only _ _ _ []).1.trans (Ini.C37_read_only r0 _ _ []).1, fun n => ?_⟩
      exact (Ini.C37_read_only _ _ _ n).2.trans (Ini.C37_read_only r0 _ _ n).2
    · simp at h

theorem getSubsections_congr {r r0 : Ini.Reader} (h : Ini.getSections r = Ini.getSections r0) (p : Str) (f : Bool) :
    Ini.getSubsections r p f = Ini.getSubsections r0 p f := by
  unfold Ini.getSections at h
  unfold Ini.getSubsections
  rw [h]

/-! ## C44: the materials -/

/-- The text of the last entry whose key, in capitals, satisfies `p`. -/
def lastWith (p : Str → Bool) (m : SMap Str Str) : Option Str :=
  ((m.filter (fun e => p e.1.upper)).getLast?).map Prod.snd

theorem lastWith_cons (p : Str → Bool) (e : Str × Str) (m : SMap Str Str) :
    lastWith p (e :: m) = (lastWith p m).or (if p e.1.upper then some e.2 else none) := by
  unfold lastWith
  by_cases h : p e.1.upper = true
  · rw [List.filter_cons_of_pos (p := fun e : Str × Str => p e.1.upper) h, List.getLast?_cons, if_pos h]
    cases (List.filter (fun e => p e.1.upper) m).getLast? <;> simp
  · rw [List.filter_cons_of_neg (p := fun e : Str × Str => p e.1.upper) h, if_neg h]; simp

theorem foldl_last {V A : Type} (step : V → Str × Str → V) (get : V → A) (p : Str → Bool) (g : Str → A)
    (h : ∀ v e, get (step v e) = if p e.1.upper then g e.2 else get v) (m : SMap Str Str) (v : V) :
    get (m.foldl step v) = match lastWith p m with
      | some t => g t
      | none => get v := by
  induction m generalizing v with
  | nil => rfl
  | cons e t ih =>
    rw [List.foldl_cons, ih, lastWith_cons, h]
    cases lastWith p t with
    | some x => simp
    | none => by_cases hp : p e.1.upper = true <;> simp [hp]

/-- The keys of the section of a material. -/
def isDensity (k : Str) : Bool := k == "DENSITY".toList
/-- Thickness. -/
def isThickness (k : Str) : Bool := k == "THICKNESS".toList
/-- List of compounds. -/
def isCompounds (k : Str) : Bool := k == "COMPOUNDLIST".toList
/-- Fractions of the compounds. -/
def isFractions (k : Str) : Bool := k == "COMPOUNDFRACTION".toList || k == "COMPOUNDFRACTIONS".toList
/-- Any other key is a comment. -/
def isComment (k : Str) : Bool := !(isDensity k || isThickness k || isCompounds k || isFractions k)

/-- A section that gives all the data of a material. -/
def Complete (m : SMap Str Str) : Prop :=
  lastWith isDensity m ≠ none ∧ lastWith isThickness m ≠ none ∧ lastWith isCompounds m ≠ none ∧
  lastWith isFractions m ≠ none ∧ lastWith isComment m ≠ none

/-- The material is the one its section describes: the name after the (first) dot, the numbers, the comment and the
composition normalised by `setComposition`. -/
structure Describes (cv : Conv K) (name : Str) (m : SMap Str Str) (mat : Material K) : Prop where
  name : ∃ n, (Ini.multipleValues Ini.word '.' [] name)[1]? = some n ∧ mat.name = String.ofList n
  density : ∃ t, lastWith isDensity m = some t ∧ mat.defaultDensity = (cv.num t).getD (-1)
  thickness : ∃ t, lastWith isThickness m = some t ∧ mat.defaultThickness = (cv.num t).getD (-1)
  comment : ∃ t, lastWith isComment m = some t ∧ mat.comment = String.ofList t
  composition : ∃ l f base, lastWith isCompounds m = some l ∧ lastWith isFractions m = some f ∧
    Material.setComposition base ((Ini.multipleValues Ini.word ',' [] l).map String.ofList)
      (Ini.multipleValues cv.num ',' (-1) f) = (.ok (), mat)

theorem matEntry_density (v : MatVars K) (e : Str × Str) :
    (matEntry cv v e).density = if isDensity e.1.upper then some ((cv.num e.2).getD (-1)) else v.density := by
  unfold matEntry isDensity
  dsimp only
  by_cases h : e.1.upper = "DENSITY".toList
  · simp [h]
  · rw [if_neg h]
    simp only [beq_iff_eq, h, if_false]
    split_ifs <;> rfl

theorem matEntry_thickness (v : MatVars K) (e : Str × Str) :
    (matEntry cv v e).thickness = if isThickness e.1.upper then some ((cv.num e.2).getD (-1)) else v.thickness := by
  unfold matEntry isThickness
  dsimp only
  by_cases h : e.1.upper = "THICKNESS".toList
  · rw [h, if_neg (by decide)]; simp
  · simp only [beq_iff_eq, h, if_false]
    split_ifs <;> rfl

theorem matEntry_compounds (v : MatVars K) (e : Str × Str) :
    (matEntry cv v e).compounds = if isCompounds e.1.upper then Ini.multipleValues Ini.word ',' [] e.2
      else v.compounds := by
  unfold matEntry isCompounds
  dsimp only
  by_cases h : e.1.upper = "COMPOUNDLIST".toList
  · rw [h, if_neg (by decide), if_neg (by decide)]; simp
  · simp only [beq_iff_eq, h, if_false]
    split_ifs <;> rfl

theorem matEntry_fractions (v : MatVars K) (e : Str × Str) :
    (matEntry cv v e).fractions = if isFractions e.1.upper then Ini.multipleValues cv.num ',' (-1) e.2
      else v.fractions := by
  unfold matEntry isFractions
  dsimp only
  by_cases h : e.1.upper = "COMPOUNDFRACTION".toList ∨ e.1.upper = "COMPOUNDFRACTIONS".toList
  · have h1 : ¬ e.1.upper = "DENSITY".toList := by rcases h with h | h <;> rw [h] <;> decide
    have h2 : ¬ e.1.upper = "THICKNESS".toList := by rcases h with h | h <;> rw [h] <;> decide
    have h3 : ¬ e.1.upper = "COMPOUNDLIST".toList := by rcases h with h | h <;> rw [h] <;> decide
    rw [if_neg h1, if_neg h2, if_neg h3, if_pos h]
    simp only [Bool.or_eq_true, beq_iff_eq, h, if_true]
  · simp only [Bool.or_eq_true, beq_iff_eq, h, if_false]
    split_ifs <;> rfl

theorem matEntry_comment (v : MatVars K) (e : Str × Str) :
    (matEntry cv v e).comment = if isComment e.1.upper then e.2 else v.comment := by
  unfold matEntry isComment isDensity isThickness isCompounds isFractions
  dsimp only
  by_cases h1 : e.1.upper = "DENSITY".toList
  · simp [h1]
  by_cases h2 : e.1.upper = "THICKNESS".toList
  · simp [h2]
  by_cases h3 : e.1.upper = "COMPOUNDLIST".toList
  · simp [h3]
  by_cases h4 : e.1.upper = "COMPOUNDFRACTION".toList ∨ e.1.upper = "COMPOUNDFRACTIONS".toList
  · have : (e.1.upper == "COMPOUNDFRACTION".toList || e.1.upper == "COMPOUNDFRACTIONS".toList) = true := by
      simpa using h4
    rw [if_neg h1, if_neg h2, if_neg h3, if_pos h4, this]
    simp
  · have : (e.1.upper == "COMPOUNDFRACTION".toList || e.1.upper == "COMPOUNDFRACTIONS".toList) = false := by
      simpa using h4
    have e1 : (e.1.upper == "DENSITY".toList) = false := by simpa using h1
    have e2 : (e.1.upper == "THICKNESS".toList) = false := by simpa using h2
    have e3 : (e.1.upper == "COMPOUNDLIST".toList) = false := by simpa using h3
    rw [if_neg h1, if_neg h2, if_neg h3, if_neg h4, this, e1, e2, e3]
    simp

theorem matMake_describes {name : Str} {m : SMap Str Str} {v : MatVars K} {mat : Material K} (hc : Complete m)
    (h : matMake name (m.foldl (matEntry cv) v) = .ok mat) : Describes cv name m mat := by
  have e1 := foldl_last (matEntry cv) MatVars.density isDensity (fun t => some ((cv.num t).getD (-1)))
    (matEntry_density cv) m v
  have e2 := foldl_last (matEntry cv) MatVars.thickness isThickness (fun t => some ((cv.num t).getD (-1)))
    (matEntry_thickness cv) m v
  have e3 := foldl_last (matEntry cv) MatVars.compounds isCompounds (fun t => Ini.multipleValues Ini.word ',' [] t)
    (matEntry_compounds cv) m v
  have e4 := foldl_last (matEntry cv) MatVars.fractions isFractions (fun t => Ini.multipleValues cv.num ',' (-1) t)
    (matEntry_fractions cv) m v
  have e5 := foldl_last (matEntry cv) MatVars.comment isComment (fun t => t) (matEntry_comment cv) m v
  obtain ⟨c1, c2, c3, c4, c5⟩ := hc
  obtain ⟨t1, h1⟩ := Option.ne_none_iff_exists'.1 c1
  obtain ⟨t2, h2⟩ := Option.ne_none_iff_exists'.1 c2
  obtain ⟨t3, h3⟩ := Option.ne_none_iff_exists'.1 c3
  obtain ⟨t4, h4⟩ := Option.ne_none_iff_exists'.1 c4
  obtain ⟨t5, h5⟩ := Option.ne_none_iff_exists'.1 c5
  rw [h1] at e1; rw [h2] at e2; rw [h3] at e3; rw [h4] at e4; rw [h5] at e5
  dsimp only at e1 e2 e3 e4 e5
  unfold matMake at h
  rw [e1, e2, e3, e4, e5] at h
  obtain ⟨n, hn, h⟩ := Outcome.bind_eq_ok.1 h
  rw [value, Outcome.ok_bind, value, Outcome.ok_bind] at h
  obtain ⟨base, hbase, hset0⟩ := Outcome.bind_eq_ok.1 h
  unfold secondName at hn
  obtain ⟨n', hn', hn⟩ := Outcome.bind_eq_ok.1 hn
  simp only [Outcome.pure_eq, Outcome.ok.injEq] at hn
  subst hn
  have hidx : (Ini.multipleValues Ini.word '.' [] name)[1]? = some n' := by
    unfold vget at hn'
    cases hx : (Ini.multipleValues Ini.word '.' [] name)[1]? with
    | none => rw [hx] at hn'; simp at hn'
    | some a => rw [hx] at hn'; simp at hn'; rw [hn']
  have hset : Material.setComposition base ((Ini.multipleValues Ini.word ',' [] t3).map String.ofList)
      (Ini.multipleValues cv.num ',' (-1) t4) = (.ok (), mat) := by
    split at hset0
    · next heq =>
      simp only [Outcome.ok.injEq] at hset0
      rw [← hset0]; exact heq
    all_goals simp at hset0
  have hkeep : mat.name = base.name ∧ mat.defaultDensity = base.defaultDensity ∧
      mat.defaultThickness = base.defaultThickness ∧ mat.comment = base.comment := by
    unfold Material.setComposition at hset
    split at hset
    · simp at hset
    · split at hset
      · simp only [Prod.mk.injEq, true_and] at hset
        rw [← hset]; exact ⟨rfl, rfl, rfl, rfl⟩
      · simp at hset
      · simp at hset
      · simp at hset
  have hb : base.name = String.ofList n' ∧ base.defaultDensity = (cv.num t1).getD (-1) ∧
      base.defaultThickness = (cv.num t2).getD (-1) ∧ base.comment = String.ofList t5 := by
    unfold Material.mk? Material.init at hbase
    split_ifs at hbase
    all_goals simp at hbase
    rw [← hbase]; exact ⟨rfl, rfl, rfl, rfl⟩
  exact ⟨⟨n', hidx, hkeep.1.trans hb.1⟩, ⟨t1, h1, hkeep.2.1.trans hb.2.1⟩, ⟨t2, h2, hkeep.2.2.1.trans hb.2.2.1⟩,
    ⟨t5, h5, hkeep.2.2.2.trans hb.2.2.2⟩, ⟨t3, t4, base, h3, h4, hset⟩⟩

theorem matLoop_describes {r : Ini.Reader} {ss : List Str} {v : MatVars K} {done ms : List (Material K)}
    (hc : ∀ s ∈ ss, Complete (Ini.readSection r s true).1) (h : matLoop cv r ss v done = (.ok (), ms)) :
    ∃ ms', ms = done ++ ms' ∧ List.Forall₂ (fun s m => Describes cv s (Ini.readSection r s true).1 m) ss ms' := by
  induction ss generalizing v done with
  | nil =>
    simp only [matLoop, Prod.mk.injEq, true_and] at h
    exact ⟨[], by simp [h], List.Forall₂.nil⟩
  | cons s t ih =>
    rw [matLoop] at h
    cases hm : matMake s ((Ini.readSection r s true).1.foldl (matEntry cv) v) with
    | ok m =>
      rw [hm] at h
      obtain ⟨ms', h1, h2⟩ := ih (fun x hx => hc x (List.mem_cons_of_mem _ hx)) h
      exact ⟨m :: ms', by rw [h1]; simp,
        List.Forall₂.cons (matMake_describes cv (hc s (List.mem_cons_self ..)) hm) h2⟩
    | throw e => rw [hm] at h; simp at h
    | ub u => rw [hm] at h; simp at h
    | diverge => rw [hm] at h; simp at h

theorem attEntry_keeps {s s' : AttState K R} {e : Str × Str} (h : attEntry cv s e = .ok s') :
    s'.config.materials = s.config.materials ∧ s'.config.beam = s.config.beam ∧
    s'.config.userBeamFilters = s.config.userBeamFilters ∧
    s'.config.userAttenuators = s.config.userAttenuators := by
  unfold attEntry at h
  dsimp only at h
  split at h
  · cases h; exact ⟨rfl, rfl, rfl, rfl⟩
  · split at h
    · split at h
      · obtain ⟨l, -, h⟩ := Outcome.bind_eq_ok.1 h
        cases h; exact ⟨rfl, rfl, rfl, rfl⟩
      · split at h
        · obtain ⟨n4, -, h⟩ := Outcome.bind_eq_ok.1 h
          obtain ⟨n5, -, h⟩ := Outcome.bind_eq_ok.1 h
          obtain ⟨n6, -, h⟩ := Outcome.bind_eq_ok.1 h
          obtain ⟨n7, -, h⟩ := Outcome.bind_eq_ok.1 h
          obtain ⟨w, -, h⟩ := Outcome.bind_eq_ok.1 h
          split at h
          · cases h
            dsimp only
            split_ifs <;> exact ⟨rfl, rfl, rfl, rfl⟩
          · obtain ⟨l, -, h⟩ := Outcome.bind_eq_ok.1 h
            cases h
            dsimp only
            split_ifs <;> exact ⟨rfl, rfl, rfl, rfl⟩
        · split at h
          · obtain ⟨l, -, h⟩ := Outcome.bind_eq_ok.1 h
            cases h; exact ⟨rfl, rfl, rfl, rfl⟩
          · obtain ⟨l, -, h⟩ := Outcome.bind_eq_ok.1 h
            cases h; exact ⟨rfl, rfl, rfl, rfl⟩
    · cases h; exact ⟨rfl, rfl, rfl, rfl⟩

theorem attLoop_keeps {s s' : AttState K R} {es : List (Str × Str)} (h : attLoop cv es s = .ok s') :
    s'.config.materials = s.config.materials ∧ s'.config.beam = s.config.beam ∧
    s'.config.userBeamFilters = s.config.userBeamFilters ∧
    s'.config.userAttenuators = s.config.userAttenuators := by
  induction es generalizing s with
  | nil => cases h; exact ⟨rfl, rfl, rfl, rfl⟩
  | cons e t ih =>
    rw [attLoop] at h
    obtain ⟨s1, h1, h⟩ := Outcome.bind_eq_ok.1 h
    obtain ⟨a, b, c, d⟩ := attEntry_keeps cv h1
    obtain ⟨a', b', c', d'⟩ := ih h
    exact ⟨a'.trans a, b'.trans b, c'.trans c, d'.trans d⟩

/-- C44, the part that holds: if every section of a material gives all the data, a configuration that was read has one
material per section `[Materials.…]`, in file order, each described by its own section only. -/
theorem C44_own_section_partial {c c' : Config K R} {text : Str}
    (h : read setArea sort cv c (some text) = (.ok (), c')) :
    ∃ r, Ini.read Ini.new (some text) = (.ok (), r) ∧
      ((∀ s ∈ Ini.getSubsections r "Materials".toList false, Complete (Ini.readSection r s true).1) →
        List.Forall₂ (fun s m => Describes cv s (Ini.readSection r s true).1 m)
          (Ini.getSubsections r "Materials".toList false) c'.materials) := by
  obtain ⟨r0, r, fit, b, c1, s, sample, H⟩ := read_ok setArea sort cv h
  obtain ⟨hs1, hs2⟩ := fitSection_same H.hfit
  refine ⟨r0, H.ini, fun hc => ?_⟩
  have hsub := getSubsections_congr hs1 "Materials".toList false
  have hm := H.materials
  rw [hsub] at hm
  obtain ⟨ms', h1, h2⟩ := matLoop_describes cv (fun x hx => by rw [hs2]; exact hc x hx) hm
  have hfin : c'.materials = c1.materials := by
    obtain ⟨d, hd⟩ := H.result
    rw [hd]
    exact (attLoop_keeps cv H.att).1
  rw [hfin, h1, List.nil_append]
  simpa only [hs2] using h2

/-! ## C64: layers -/

/-- The numbers of an entry. -/
def nums (cv : Conv K) (e : Str × Str) : List K := Ini.multipleValues cv.num ',' (-1) e.2
/-- The words of an entry. -/
def words (e : Str × Str) : List Str := Ini.multipleValues Ini.word ',' [] e.2
/-- The first number of the entry is positive. -/
def Enabled (cv : Conv K) (e : Str × Str) : Prop := ∃ n rest, nums cv e = n :: rest ∧ 0 < n
/-- The key is `BeamFilter` and one character. -/
def IsFilter (e : Str × Str) : Prop := e.1.dropLast = "BeamFilter".toList
/-- The description of the sample: eight fields. -/
def IsMatrix (e : Str × Str) : Prop := ¬ IsFilter e ∧ (words e).length = 8
/-- The description of the detector. -/
def IsDetector (e : Str × Str) : Prop := ¬ IsFilter e ∧ (words e).length ≠ 8 ∧ e.1.take 8 = "Detector".toList
/-- Any other entry is an attenuator. -/
def IsAttenuator (e : Str × Str) : Prop :=
  ¬ IsFilter e ∧ (words e).length ≠ 8 ∧ e.1.take 8 ≠ "Detector".toList
/-- The sample is described in another section. -/
def IsMultilayer (e : Str × Str) : Prop := (words e)[1]? = some "MULTILAYER".toList

/-- An enabled beam filter. -/
def FilterEntry (cv : Conv K) (e : Str × Str) : Prop := Enabled cv e ∧ IsFilter e
/-- An enabled attenuator. -/
def AttenuatorEntry (cv : Conv K) (e : Str × Str) : Prop := Enabled cv e ∧ IsAttenuator e
/-- An enabled sample with a single layer. -/
def SampleEntry (cv : Conv K) (e : Str × Str) : Prop := Enabled cv e ∧ IsMatrix e ∧ ¬ IsMultilayer e

/-- The layer described by an entry: name, material (the last of the configuration with that name, or just the name),
density and thickness, and the funny factor at the given position or one. -/
structure LayerOf (cv : Conv K) (mats : List (Material K)) (funny : Option Nat) (e : Str × Str) (l : Layer K) : Prop where
  name : l.name = String.ofList e.1
  data : ∃ d t w, (nums cv e)[2]? = some d ∧ (nums cv e)[3]? = some t ∧ (words e)[1]? = some w ∧
    l.materialName = String.ofList w ∧
    (0 < d → 0 < t → l.density = d ∧ l.thickness = t) ∧
    (∀ m, (mats.filter (fun m => m.name = String.ofList w)).getLast? = some m → l.hasMaterial = true ∧ l.material = m) ∧
    ((∀ m ∈ mats, m.name ≠ String.ofList w) → l.hasMaterial = false ∧ l.density = d ∧ l.thickness = t)
  funny : match funny with
    | some i => (nums cv e)[i]? = some l.funnyFactor
    | none => l.funnyFactor = 1

theorem vget_ok {α : Type} {v : List α} {i : Nat} {a : α} (h : vget v i = .ok a) : v[i]? = some a := by
  unfold vget at h
  cases hx : v[i]? with
  | none => rw [hx] at h; simp at h
  | some b => rw [hx] at h; simp at h; rw [h]

theorem foldl_setMaterial (ms : List (Material K)) (l : Layer K) :
    let l' := ms.foldl (fun l m => l.setMaterial m) l
    l'.name = l.name ∧ l'.materialName = l.materialName ∧ l'.funnyFactor = l.funnyFactor ∧
    (0 < l.density → 0 < l.thickness → l'.density = l.density ∧ l'.thickness = l.thickness) ∧
    (∀ m, ms.getLast? = some m → l'.hasMaterial = true ∧ l'.material = m) ∧
    (ms = [] → l' = l) := by
  induction ms generalizing l with
  | nil => exact ⟨rfl, rfl, rfl, fun _ _ => ⟨rfl, rfl⟩, by simp, fun _ => rfl⟩
  | cons m t ih =>
    obtain ⟨h1, h2, h3, h4, h5, h6⟩ := ih (l.setMaterial m)
    refine ⟨h1, h2, h3, ?_, ?_, by simp⟩
    · intro hd ht
      have e1 : (l.setMaterial m).density = l.density := by simp [Layer.setMaterial, not_lt.2 hd.le]
      have e2 : (l.setMaterial m).thickness = l.thickness := by simp [Layer.setMaterial, not_le.2 ht]
      have := h4 (by rw [e1]; exact hd) (by rw [e2]; exact ht)
      rw [e1, e2] at this
      exact this
    · intro m' hm'
      cases t with
      | nil =>
        simp at hm'
        subst hm'
        rw [List.foldl_cons, h6 rfl]
        exact ⟨rfl, rfl⟩
      | cons m2 t =>
        rw [List.getLast?_cons_cons] at hm'
        exact h5 m' hm'

theorem makeLayer_spec {mats : List (Material K)} {e : Str × Str} {funny : Option Nat} {l : Layer K}
    (h : makeLayer mats e.1 (nums cv e) (words e) funny = .ok l) : LayerOf cv mats funny e l := by
  unfold makeLayer at h
  obtain ⟨d, hd, h⟩ := Outcome.bind_eq_ok.1 h
  obtain ⟨t, ht, h⟩ := Outcome.bind_eq_ok.1 h
  obtain ⟨f, hf, h⟩ := Outcome.bind_eq_ok.1 h
  obtain ⟨w, hw, h⟩ := Outcome.bind_eq_ok.1 h
  simp only [Outcome.pure_eq, Outcome.ok.injEq] at h
  have hl := foldl_setMaterial (mats.filter (fun m => m.name = String.ofList w))
    ((Layer.new (String.ofList e.1) d t f).setMaterialName (String.ofList w))
  unfold dress at h
  rw [h] at hl
  obtain ⟨h1, h2, h3, h4, h5, h6⟩ := hl
  refine ⟨h1, ⟨d, t, w, vget_ok hd, vget_ok ht, vget_ok hw, h2, h4, h5, ?_⟩, ?_⟩
  · intro hno
    have := h6 (List.filter_eq_nil_iff.2 (fun m hm => by simpa using hno m hm))
    rw [this]
    exact ⟨rfl, rfl, rfl⟩
  · cases funny with
    | none =>
      dsimp only at hf ⊢
      cases hf
      exact h3
    | some i =>
      dsimp only at hf ⊢
      rw [vget_ok hf]
      exact congrArg some h3.symm

theorem take_pred (s : Str) : s.take (s.length - 1) = s.dropLast := by rw [List.dropLast_eq_take]

open Classical in
theorem attEntry_spec {s s' : AttState K R} {e : Str × Str} (h : attEntry cv s e = .ok s') :
    (∃ ls, s'.config.beamFilters = s.config.beamFilters ++ ls ∧ List.Forall₂ (LayerOf cv s.config.materials (some 4))
      ([e].filter (fun e => FilterEntry cv e)) ls) ∧
    (∃ ls, s'.config.attenuators = s.config.attenuators ++ ls ∧ List.Forall₂ (LayerOf cv s.config.materials (some 4))
      ([e].filter (fun e => AttenuatorEntry cv e)) ls) ∧
    (∃ ls, s'.config.sample = s.config.sample ++ ls ∧ List.Forall₂ (LayerOf cv s.config.materials none)
      ([e].filter (fun e => SampleEntry cv e)) ls) ∧
    (s'.multilayer = true ↔ s.multilayer = true ∨ (Enabled cv e ∧ IsMatrix e ∧ IsMultilayer e)) := by
  unfold attEntry at h
  dsimp only at h
  have hn : Ini.multipleValues cv.num ',' (-1) e.2 = nums cv e := rfl
  have hw : Ini.multipleValues Ini.word ',' [] e.2 = words e := rfl
  rw [hn, hw] at h
  have none_ : ∀ (p : Str × Str → Prop) (f : Option Nat), ¬ p e → ∃ ls : List (Layer K), (∀ x : List (Layer K), x = x ++ ls) ∧
      List.Forall₂ (LayerOf cv s.config.materials f) ([e].filter (fun e => p e)) ls := by
    intro p f hp
    exact ⟨[], by simp, by rw [List.filter_cons_of_neg (by simpa using hp)]; exact List.Forall₂.nil⟩
  have skip : ¬ Enabled cv e → s' = s →
    (∃ ls, s'.config.beamFilters = s.config.beamFilters ++ ls ∧ List.Forall₂ (LayerOf cv s.config.materials (some 4))
        ([e].filter (fun e => FilterEntry cv e)) ls) ∧
      (∃ ls, s'.config.attenuators = s.config.attenuators ++ ls ∧ List.Forall₂ (LayerOf cv s.config.materials (some 4))
        ([e].filter (fun e => AttenuatorEntry cv e)) ls) ∧
      (∃ ls, s'.config.sample = s.config.sample ++ ls ∧ List.Forall₂ (LayerOf cv s.config.materials none)
        ([e].filter (fun e => SampleEntry cv e)) ls) ∧
      (s'.multilayer = true ↔ s.multilayer = true ∨ (Enabled cv e ∧ IsMatrix e ∧ IsMultilayer e)) := fun hdis hs => by
    obtain ⟨l1, a1, b1⟩ := none_ (fun e => FilterEntry cv e) (some 4) (fun h => hdis h.1)
    obtain ⟨l2, a2, b2⟩ := none_ (fun e => AttenuatorEntry cv e) (some 4) (fun h => hdis h.1)
    obtain ⟨l3, a3, b3⟩ := none_ (fun e => SampleEntry cv e) none (fun h => hdis h.1)
    rw [hs]
    exact ⟨⟨l1, a1 _, b1⟩, ⟨l2, a2 _, b2⟩, ⟨l3, a3 _, b3⟩,
      ⟨fun h => Or.inl h, fun h => h.elim id (fun h => absurd h.1 hdis)⟩⟩
  cases hnum : nums cv e with
  | nil =>
    rw [hnum] at h
    simp only [Outcome.ok.injEq] at h
    exact skip (by rintro ⟨n, rest, hx, -⟩; rw [hnum] at hx; cases hx) h.symm
  | cons n0 rest =>
    rw [hnum] at h
    dsimp only at h
    by_cases hpos : n0 > 0
    · have hen : Enabled cv e := ⟨n0, rest, hnum, hpos⟩
      rw [if_pos hpos, ← hnum] at h
      have one_ : ∀ (p : Str × Str → Prop) (f : Option Nat) (l : Layer K), p e → LayerOf cv s.config.materials f e l →
          List.Forall₂ (LayerOf cv s.config.materials f) ([e].filter (fun e => p e)) [l] := by
        intro p f l hp hl
        rw [List.filter_cons_of_pos (by simpa using hp)]
        exact List.Forall₂.cons hl List.Forall₂.nil
      by_cases hf : IsFilter e
      · rw [if_pos (by rw [take_pred]; exact hf)] at h
        obtain ⟨l, hl, h⟩ := Outcome.bind_eq_ok.1 h
        simp only [Outcome.pure_eq, Outcome.ok.injEq] at h
        subst h
        obtain ⟨l2, a2, b2⟩ := none_ (fun e => AttenuatorEntry cv e) (some 4) (fun h => h.2.1 hf)
        obtain ⟨l3, a3, b3⟩ := none_ (fun e => SampleEntry cv e) none
          (fun h => h.2.1.1 hf)
        exact ⟨⟨[l], rfl, one_ _ _ _ ⟨hen, hf⟩ (makeLayer_spec cv hl)⟩, ⟨l2, a2 _, b2⟩, ⟨l3, a3 _, b3⟩,
          ⟨fun h => Or.inl h, fun h => h.elim id (fun h => absurd hf h.2.1.1)⟩⟩
      · rw [if_neg (by rw [take_pred]; exact hf)] at h
        obtain ⟨l1, a1, b1⟩ := none_ (fun e => FilterEntry cv e) (some 4) (fun h => hf h.2)
        by_cases h8 : (words e).length = 8
        · rw [if_pos h8] at h
          obtain ⟨n4, -, h⟩ := Outcome.bind_eq_ok.1 h
          obtain ⟨n5, -, h⟩ := Outcome.bind_eq_ok.1 h
          obtain ⟨n6, -, h⟩ := Outcome.bind_eq_ok.1 h
          obtain ⟨n7, -, h⟩ := Outcome.bind_eq_ok.1 h
          obtain ⟨w, hw, h⟩ := Outcome.bind_eq_ok.1 h
          have hw := vget_ok hw
          obtain ⟨l2, a2, b2⟩ := none_ (fun e => AttenuatorEntry cv e) (some 4) (fun h => h.2.2.1 h8)
          have hgeo : ∀ (c : Config K R) (g : Config K R), g = (if n6 > 0 then c.setGeometry n4 n5 n7
              else c.setGeometry n4 n5 (n4 + n5)) → g.materials = c.materials ∧ g.beamFilters = c.beamFilters ∧
              g.attenuators = c.attenuators ∧ g.sample = c.sample := by
            intro c g hg
            subst hg
            split_ifs <;> exact ⟨rfl, rfl, rfl, rfl⟩
          obtain ⟨g, hg⟩ : ∃ g, g = (if n6 > 0 then s.config.setGeometry n4 n5 n7
              else s.config.setGeometry n4 n5 (n4 + n5)) := ⟨_, rfl⟩
          obtain ⟨g1, g2, g3, g4⟩ := hgeo s.config g hg
          rw [← hg] at h
          by_cases hm : w = "MULTILAYER".toList
          · rw [if_pos hm] at h
            simp only [Outcome.pure_eq, Outcome.ok.injEq] at h
            subst h
            have hml : IsMultilayer e := by rw [IsMultilayer, hw, hm]
            obtain ⟨l3, a3, b3⟩ := none_ (fun e => SampleEntry cv e) none
              (fun h => h.2.2 hml)
            exact ⟨⟨l1, by rw [← a1]; exact g2, b1⟩, ⟨l2, by rw [← a2]; exact g3, b2⟩,
              ⟨l3, by rw [← a3]; exact g4, b3⟩, ⟨fun _ => Or.inr ⟨hen, ⟨hf, h8⟩, hml⟩, fun _ => rfl⟩⟩
          · rw [if_neg hm] at h
            obtain ⟨l, hl, h⟩ := Outcome.bind_eq_ok.1 h
            simp only [Outcome.pure_eq, Outcome.ok.injEq] at h
            subst h
            have hml : ¬ IsMultilayer e := by
              rw [IsMultilayer, hw]
              intro hx
              exact hm (Option.some_inj.1 hx)
            rw [g1] at hl
            exact ⟨⟨l1, by rw [← a1]; exact g2, b1⟩, ⟨l2, by rw [← a2]; exact g3, b2⟩,
              ⟨[l], by show g.sample ++ [l] = _; rw [g4], one_ _ _ _ ⟨hen, ⟨hf, h8⟩, hml⟩ (makeLayer_spec cv hl)⟩,
              ⟨fun h => Or.inl h, fun h => h.elim id (fun h => absurd h.2.2 hml)⟩⟩
        · rw [if_neg h8] at h
          obtain ⟨l3, a3, b3⟩ := none_ (fun e => SampleEntry cv e) none
            (fun h => h8 h.2.1.2)
          have hml : ∀ {q : Prop}, (q ∨ (Enabled cv e ∧ IsMatrix e ∧ IsMultilayer e)) ↔ q :=
            ⟨fun h => h.elim id (fun h => absurd h.2.1.2 h8), Or.inl⟩
          by_cases hdet : e.1.take 8 = "Detector".toList
          · rw [if_pos hdet] at h
            obtain ⟨l, hl, h⟩ := Outcome.bind_eq_ok.1 h
            simp only [Outcome.pure_eq, Outcome.ok.injEq] at h
            subst h
            obtain ⟨l2, a2, b2⟩ := none_ (fun e => AttenuatorEntry cv e) (some 4) (fun h => h.2.2.2 hdet)
            exact ⟨⟨l1, a1 _, b1⟩, ⟨l2, a2 _, b2⟩, ⟨l3, a3 _, b3⟩, hml.symm⟩
          · rw [if_neg hdet] at h
            obtain ⟨l, hl, h⟩ := Outcome.bind_eq_ok.1 h
            simp only [Outcome.pure_eq, Outcome.ok.injEq] at h
            subst h
            exact ⟨⟨l1, a1 _, b1⟩, ⟨[l], rfl, one_ _ _ _ ⟨hen, hf, h8, hdet⟩ (makeLayer_spec cv hl)⟩,
              ⟨l3, a3 _, b3⟩, hml.symm⟩
    · rw [if_neg hpos] at h
      simp only [Outcome.ok.injEq] at h
      refine skip ?_ h.symm
      rintro ⟨n, rest', hx, hn0⟩
      rw [hnum] at hx
      cases hx
      exact hpos hn0

open Classical in
theorem attLoop_spec {s s' : AttState K R} {es : List (Str × Str)} (h : attLoop cv es s = .ok s') :
    (∃ ls, s'.config.beamFilters = s.config.beamFilters ++ ls ∧ List.Forall₂ (LayerOf cv s.config.materials (some 4))
      (es.filter (fun e => FilterEntry cv e)) ls) ∧
    (∃ ls, s'.config.attenuators = s.config.attenuators ++ ls ∧ List.Forall₂ (LayerOf cv s.config.materials (some 4))
      (es.filter (fun e => AttenuatorEntry cv e)) ls) ∧
    (∃ ls, s'.config.sample = s.config.sample ++ ls ∧ List.Forall₂ (LayerOf cv s.config.materials none)
      (es.filter (fun e => SampleEntry cv e)) ls) ∧
    (s'.multilayer = true ↔ s.multilayer = true ∨ ∃ e ∈ es, Enabled cv e ∧ IsMatrix e ∧ IsMultilayer e) := by
  induction es generalizing s with
  | nil =>
    cases h
    exact ⟨⟨[], by simp, List.Forall₂.nil⟩, ⟨[], by simp, List.Forall₂.nil⟩, ⟨[], by simp, List.Forall₂.nil⟩, by simp⟩
  | cons e t ih =>
    rw [attLoop] at h
    obtain ⟨s1, h1, h⟩ := Outcome.bind_eq_ok.1 h
    have hmat := (attEntry_keeps cv h1).1
    obtain ⟨⟨l1, a1, b1⟩, ⟨l2, a2, b2⟩, ⟨l3, a3, b3⟩, m1⟩ := attEntry_spec cv h1
    obtain ⟨⟨k1, c1, d1⟩, ⟨k2, c2, d2⟩, ⟨k3, c3, d3⟩, m2⟩ := ih h
    rw [hmat] at d1 d2 d3
    have hf : ∀ p : Str × Str → Bool, (e :: t).filter p = [e].filter p ++ t.filter p := by
      intro p
      rw [← List.filter_append]; rfl
    refine ⟨⟨l1 ++ k1, by rw [c1, a1, List.append_assoc], ?_⟩, ⟨l2 ++ k2, by rw [c2, a2, List.append_assoc], ?_⟩,
      ⟨l3 ++ k3, by rw [c3, a3, List.append_assoc], ?_⟩, ?_⟩
    · rw [hf]; exact List.rel_append b1 d1
    · rw [hf]; exact List.rel_append b2 d2
    · rw [hf]; exact List.rel_append b3 d3
    · rw [m2, m1]
      simp only [List.mem_cons, exists_eq_or_imp]
      exact or_assoc

open Classical in
theorem layerLoop_spec {mats : List (Material K)} {es : List (Str × Str)} {done ls : List (Layer K)}
    (h : layerLoop cv mats es done = .ok ls) :
    ∃ ls', ls = done ++ ls' ∧ List.Forall₂ (LayerOf cv mats none) (es.filter (fun e => Enabled cv e)) ls' := by
  induction es generalizing done with
  | nil => cases h; exact ⟨[], by simp, List.Forall₂.nil⟩
  | cons e t ih =>
    rw [layerLoop] at h
    have hn : Ini.multipleValues cv.num ',' (-1) e.2 = nums cv e := rfl
    have hw : Ini.multipleValues Ini.word ',' [] e.2 = words e := rfl
    rw [hn, hw] at h
    cases hnum : nums cv e with
    | nil =>
      rw [hnum] at h
      dsimp only at h
      rw [List.filter_cons_of_neg (by
        simp only [decide_eq_true_eq]
        rintro ⟨n, rest, hx, -⟩; rw [hnum] at hx; cases hx)]
      exact ih h
    | cons n0 rest =>
      rw [hnum] at h
      dsimp only at h
      by_cases hpos : n0 > 0
      · rw [if_pos hpos] at h
        obtain ⟨l, hl, h⟩ := Outcome.bind_eq_ok.1 h
        obtain ⟨ls', h1, h2⟩ := ih h
        rw [List.filter_cons_of_pos (by simp only [decide_eq_true_eq]; exact ⟨n0, rest, hnum, hpos⟩)]
        rw [← hnum] at hl
        exact ⟨l :: ls', by rw [h1]; simp, List.Forall₂.cons (makeLayer_spec cv hl) h2⟩
      · rw [if_neg hpos] at h
        rw [List.filter_cons_of_neg (by
          simp only [decide_eq_true_eq]
          rintro ⟨n, rest', hx, hn0⟩; rw [hnum] at hx; cases hx; exact hpos hn0)]
        exact ih h

open Classical in
/-- C64. Let `att` be the content of the section `[attenuators]` of the file and `ml` that of `[multilayer]` (which is
only needed if an enabled sample entry says MULTILAYER). After reading the configuration, the beam filters are exactly
the enabled entries `BeamFilter?` of the attenuators, the attenuators the enabled entries that are no filter, no sample
and no detector, and the sample the enabled sample entries followed, for a multilayer, by the enabled entries of the
multilayer section; each layer with the data and the material of its own entry, in the order of the keys. -/
theorem C64_layers {c c' : Config K R} {text : Str} (h : read setArea sort cv c (some text) = (.ok (), c'))
    {ini : Ini.Reader} (hini : Ini.read Ini.new (some text) = (.ok (), ini)) {att ml : SMap Str Str}
    (hatt : ini.contents.find? "attenuators".toList = some att)
    (hml : (∃ e ∈ att, Enabled cv e ∧ IsMatrix e ∧ IsMultilayer e) →
      ini.contents.find? "multilayer".toList = some ml) :
    List.Forall₂ (LayerOf cv c'.materials (some 4)) (att.filter (fun e => FilterEntry cv e)) c'.beamFilters ∧
    List.Forall₂ (LayerOf cv c'.materials (some 4)) (att.filter (fun e => AttenuatorEntry cv e))
      c'.attenuators ∧
    List.Forall₂ (LayerOf cv c'.materials none)
      (att.filter (fun e => SampleEntry cv e) ++
        if ∃ e ∈ att, Enabled cv e ∧ IsMatrix e ∧ IsMultilayer e then ml.filter (fun e => Enabled cv e) else [])
      c'.sample ∧
    c'.referenceLayer = some 0 := by
  obtain ⟨r0, r, fit, b, c1, s, sample, H⟩ := read_ok setArea sort cv h
  obtain ⟨hs1, hs2⟩ := fitSection_same H.hfit
  obtain ⟨d, hd⟩ := H.result
  have hmat : c'.materials = c1.materials := by rw [hd]; exact (attLoop_keeps cv H.att).1
  obtain ⟨⟨l1, a1, b1⟩, ⟨l2, a2, b2⟩, ⟨l3, a3, b3⟩, m⟩ := attLoop_spec cv H.att
  dsimp only at a1 a2 a3 b1 b2 b3
  rw [H.cleared.1, List.nil_append] at a1
  rw [H.cleared.2.1, List.nil_append] at a2
  rw [H.cleared.2.2.1, List.nil_append] at a3
  have hexact : ∀ (x : Ini.Reader) (k : Str) (m' : SMap Str Str) (f : Bool), x.contents.find? k = some m' →
      (Ini.readSection x k f).1 = m' := by
    intro x k m' f hx
    unfold Ini.readSection
    rw [hx]
  -- a section that exists keeps existing
  have hstay : ∀ (x : Ini.Reader) (k q : Str) (f : Bool) (m' : SMap Str Str), x.contents.find? q = some m' →
      (Ini.readSection x k f).2.contents.find? q = some m' := by
    intro x k q f m' hx
    unfold Ini.readSection
    cases x.contents.find? k with
    | some m2 => exact hx
    | none =>
      cases f with
      | true => exact hx
      | false =>
        dsimp only
        cases Ini.search k.upper x.sections with
        | none => exact hx
        | some z =>
          show (x.contents.insert z (Ini.entry x.contents z)).find? q = some m'
          rw [SMap.find?_insert]
          by_cases hz : z = q
          · rw [if_pos hz, Ini.entry, hz, hx]; rfl
          · rw [if_neg hz]; exact hx
  have hstayfit : ∀ (q : Str) (m' : SMap Str Str), r0.contents.find? q = some m' → r.contents.find? q = some m' := by
    intro q m' hx
    have hf := H.hfit
    unfold fitSection at hf
    dsimp only at hf
    split at hf
    · simp only [Prod.mk.injEq] at hf
      rw [← hf.2]; exact hstay _ _ _ _ _ hx
    · split at hf
      · simp only [Prod.mk.injEq] at hf
        rw [← hf.2]; exact hstay _ _ _ _ _ (hstay _ _ _ _ _ hx)
      · simp at hf
  have : ini = r0 := by
    have := H.ini.symm.trans hini
    simp only [Prod.mk.injEq, true_and] at this
    exact this.symm
  subst this
  have eatt : (Ini.readSection r "attenuators".toList false).1 = att := hexact _ _ _ _ (hstayfit _ _ hatt)
  have eml : (∃ e ∈ att, Enabled cv e ∧ IsMatrix e ∧ IsMultilayer e) →
      (Ini.readSection (Ini.readSection r "attenuators".toList false).2 "multilayer".toList false).1 = ml :=
    fun hx => hexact _ _ _ _ (hstay _ _ _ _ _ (hstayfit _ _ (hml hx)))
  rw [eatt] at b1 b2 b3 m
  refine ⟨?_, ?_, ?_, ?_⟩
  · rw [hmat, show c'.beamFilters = s.config.beamFilters by rw [hd], a1]; exact b1
  · rw [hmat, show c'.attenuators = s.config.attenuators by rw [hd], a2]; exact b2
  · have hsm : c'.sample = sample := by rw [hd]
    have hsmat : s.config.materials = c1.materials := (attLoop_keeps cv H.att).1
    have hs := H.hsample
    have m' : s.multilayer = true ↔ ∃ e ∈ att, Enabled cv e ∧ IsMatrix e ∧ IsMultilayer e := by simpa using m
    rw [hsm, hmat]
    by_cases hmul : s.multilayer = true
    · rw [if_pos (m'.1 hmul)]
      rw [if_pos hmul] at hs
      obtain ⟨ls', e1, e2⟩ := layerLoop_spec cv hs
      rw [hsmat, eml (m'.1 hmul)] at e2
      rw [e1, a3]
      exact List.rel_append b3 e2
    · rw [if_neg (fun h => hmul (m'.2 h)), List.append_nil]
      rw [if_neg hmul] at hs
      simp only [Outcome.ok.injEq] at hs
      rw [← hs, a3]
      exact b3
  · rw [hd]

/-! ## Files -/

/-- A toy conversion for the examples: unsigned integers. -/
def toyNum (s : Str) : Option ℚ :=
  let d := s.filter (fun c => !Ini.isSpace c)
  if d ≠ [] ∧ d.all Char.isDigit then some (d.foldl (fun (n : ℚ) c => 10 * n + (c.toNat - 48 : Nat)) 0) else none

/-- A toy conversion for the examples. -/
def toyConv : Conv ℚ := { num := toyNum, int := fun s => (toyNum s).map (fun q => q.num) }

/-- The reading of a text by a new configuration. -/
def readText (t : String) : Outcome Unit × Config ℚ Unit :=
  read (fun d _ => (.ok (), d)) id toyConv new (some t.toList)

/-- A file with two complete materials. -/
def goodFile : String :=
  "[fit]\nenergy=10\n[Materials.Steel]\nDensity=7\nThickness=1\nCompoundList=Fe, Cr\nCompoundFraction=3,1\n" ++
  "Comment=a\n[Materials.Foil]\nDensity=3\nThickness=2\nCompoundList=Al\nCompoundFraction=1\nComment=b\n" ++
  "[attenuators]\nMatrix=1, MULTILAYER, 0, 0, 45, 45, 0, 90\nFilter0=1,Foil,3,2,1\nBeamFilter0=1,Al,3,1,1\n" ++
  "Detector=1, Si, 2, 1, 1\n[multilayer]\nLayer0=1,Steel,7,2\nLayer1=1,Cr,7,1\nLayer2=0,Cr,7,1\n"

/-- The reading of a complete file: the hypotheses of C44 and C64 are met. -/
example : (readText goodFile).1 = .ok () ∧
    (readText goodFile).2.materials.map (fun m => (m.name, m.defaultDensity, m.comment, m.composition)) =
      [("Steel", 7, "a", [("Cr", 1 / 4), ("Fe", 3 / 4)]), ("Foil", 3, "b", [("Al", 1)])] ∧
    (readText goodFile).2.sample.map (fun l => (l.name, l.materialName, l.hasMaterial)) =
      [("Layer0", "Steel", true), ("Layer1", "Cr", false)] ∧
    (readText goodFile).2.attenuators.map (fun l => (l.name, l.materialName)) = [("Filter0", "Foil")] ∧
    (readText goodFile).2.beamFilters.map (fun l => (l.name, l.materialName)) = [("BeamFilter0", "Al")] ∧
    (readText goodFile).2.detector.layer.materialName = "Si" := by decide +kernel

example : (Ini.getSubsections (Ini.read Ini.new (some goodFile.toList)).2 "Materials".toList false).map
      (fun s => let m := (Ini.readSection (Ini.read Ini.new (some goodFile.toList)).2 s true).1
        [lastWith isDensity m, lastWith isThickness m, lastWith isCompounds m, lastWith isFractions m,
          lastWith isComment m]) =
    [[some "7".toList, some "1".toList, some "Fe, Cr".toList, some "3,1".toList, some "a".toList],
     [some "3".toList, some "2".toList, some "Al".toList, some "1".toList, some "b".toList]] := by decide +kernel

/-- C44 is false: a section without density (or thickness, composition, comment) takes the one of the material before;
for the first material the value is indeterminate; a section `[Materials.]` indexes a list of one word; a name is cut
at a blank or a second dot. -/
theorem C44_violated :
    (readText ("[fit]\nenergy=10\n[Materials.A]\nDensity=7\nThickness=1\nCompoundList=Fe\nCompoundFraction=1\n" ++
        "Comment=a\n[Materials.B]\nThickness=2\n[attenuators]\nx=0\n")).1 = .ok () ∧
    (readText ("[fit]\nenergy=10\n[Materials.A]\nDensity=7\nThickness=1\nCompoundList=Fe\nCompoundFraction=1\n" ++
        "Comment=a\n[Materials.B]\nThickness=2\n[attenuators]\nx=0\n")).2.materials.map
      (fun m => (m.name, [m.defaultDensity, m.defaultThickness], m.composition, m.comment)) =
      [("A", [7, 1], [("Fe", 1)], "a"), ("B", [7, 2], [("Fe", 1)], "a")] ∧
    (readText ("[fit]\nenergy=10\n[Materials.A]\nThickness=1\nCompoundList=Fe\nCompoundFraction=1\nComment=a\n" ++
        "[attenuators]\nx=0\n")).1 = .ub .uninitialised ∧
    (readText ("[fit]\nenergy=10\n[Materials.]\nDensity=7\nThickness=1\nCompoundList=Fe\nCompoundFraction=1\n" ++
        "Comment=a\n[attenuators]\nx=0\n")).1 = .ub .outOfBounds ∧
    (readText ("[fit]\nenergy=10\n[Materials.Steel 304.x]\nDensity=7\nThickness=1\nCompoundList=Fe\n" ++
        "CompoundFraction=1\nComment=a\n[attenuators]\nx=0\n")).2.materials.map (fun m => m.name) = ["Steel"] := by
  refine ⟨by decide +kernel, ?_, by decide +kernel, by decide +kernel, by decide +kernel⟩
  decide +kernel

/-- C101, in the order of the keys, not of the file: the layer `Layer10` comes before `Layer2`. And a file without the
section `[attenuators]` uses another section with a name of the same length: here the thickness of a material is taken
for an entry that enables an attenuator, and its missing fields are read out of bounds. -/
theorem C101_order_violated :
    (readText ("[fit]\nenergy=10\n[attenuators]\nMatrix=1, MULTILAYER, 0, 0, 45, 45, 0, 90\n" ++
        "[multilayer]\nLayer2=1,Fe,7,2\nLayer10=1,Cr,7,1\n")).1 = .ok () ∧
    (readText ("[fit]\nenergy=10\n[attenuators]\nMatrix=1, MULTILAYER, 0, 0, 45, 45, 0, 90\n" ++
        "[multilayer]\nLayer2=1,Fe,7,2\nLayer10=1,Cr,7,1\n")).2.sample.map (fun l => l.name) =
      ["Layer10", "Layer2"] ∧
    (readText ("[fit]\nenergy=10\n[Materials.A]\nDensity=7\nThickness=1\nCompoundList=Fe\nCompoundFraction=1\n" ++
        "Comment=a\n")).1 = .ub .outOfBounds := by decide +kernel

/-- C42 after reading: a file without sample is accepted, and the reference layer is 0 although there is no layer. -/
theorem C42_read_violated :
    (readText "[fit]\nenergy=10\n[attenuators]\nx=0\n").1 = .ok () ∧
    (readText "[fit]\nenergy=10\n[attenuators]\nx=0\n").2.referenceLayer = some 0 ∧
    (readText "[fit]\nenergy=10\n[attenuators]\nx=0\n").2.sample.length = 0 := by decide +kernel

/-! ## C65: a rejected file -/

/-- C65 is false: a file rejected because of a material has already replaced the beam and the materials. -/
theorem C65_not_atomic_violated :
    ∃ (c : Config ℚ Unit) (text : Str), let x := read (fun d _ => (.ok (), d)) id toyConv c (some text)
      x.1 = .throw .invalidArgument ∧ c.beam.rays.map (fun r => r.energy) = [10] ∧
      x.2.beam.rays.map (fun r => r.energy) = [20] ∧
      c.materials.length = 2 ∧ x.2.materials.length = 1 := by
  refine ⟨(readText goodFile).2, ("[fit]\nenergy=20\n[Materials.A]\nDensity=7\nThickness=1\nCompoundList=Fe\n" ++
    "CompoundFraction=1\nComment=a\n[Materials.B]\nDensity=0\nThickness=1\nCompoundList=Fe\n" ++
    "CompoundFraction=0\nComment=a\n").toList, ?_⟩
  decide +kernel

theorem andThen_cases {S : Type} (x : Outcome Unit × S) (f : S → Outcome Unit × S) :
    (x.1 = .ok () ∧ andThen x f = f x.2) ∨ (x.1 ≠ .ok () ∧ andThen x f = x) := by
  obtain ⟨o, s⟩ := x
  cases o with
  | ok u => exact Or.inl ⟨rfl, rfl⟩
  | throw e => exact Or.inr ⟨by simp, rfl⟩
  | ub u => exact Or.inr ⟨by simp, rfl⟩
  | diverge => exact Or.inr ⟨by simp, rfl⟩

/-- The sample, the filters, the geometry and the detector are the same. -/
def SameSetup (a b : Config K R) : Prop :=
  a.sample = b.sample ∧ a.referenceLayer = b.referenceLayer ∧ a.beamFilters = b.beamFilters ∧
  a.attenuators = b.attenuators ∧ a.alphaIn = b.alphaIn ∧ a.alphaOut = b.alphaOut ∧
  a.scatteringAngle = b.scatteringAngle ∧ a.detector = b.detector

theorem orKeep_throw {α S : Type} {x : Outcome α} {s : S} {f : α → Outcome Unit × S} {e : Exc}
    (h : (orKeep x s f).1 = .throw e) :
    (x = .throw e ∧ (orKeep x s f).2 = s) ∨ ∃ a, x = .ok a ∧ orKeep x s f = f a ∧ (f a).1 = .throw e := by
  cases x with
  | ok a => exact Or.inr ⟨a, rfl, rfl, h⟩
  | throw e' =>
    simp only [orKeep, Outcome.throw.injEq] at h
    exact Or.inl ⟨by rw [h], rfl⟩
  | ub u => simp [orKeep] at h
  | diverge => simp [orKeep] at h

theorem setBeam_throw {b : Beam K} {e w : List K} {ch : List Int} {d : List K}
    (h : (Beam.setBeam sort b e w ch d).1 ≠ .ok ()) : (Beam.setBeam sort b e w ch d).2 = b := by
  unfold Beam.setBeam at h ⊢
  split_ifs at h ⊢ with h0
  · split at h <;> first | exact absurd rfl h | rfl
  · exact absurd rfl h

theorem vget_no_throw {α : Type} (v : List α) (i : Nat) (e : Exc) : vget v i ≠ .throw e := by
  unfold vget
  cases v[i]? <;> simp

theorem bind_no_throw {α β : Type} {x : Outcome α} {f : α → Outcome β} {e : Exc} (hx : x ≠ .throw e)
    (hf : ∀ a, f a ≠ .throw e) : (x >>= f) ≠ .throw e := by
  cases x with
  | ok a => exact hf a
  | throw e' => intro h; exact hx (by simpa using h)
  | ub u => intro h; cases h
  | diverge => intro h; cases h

theorem makeLayer_no_throw (mats : List (Material K)) (key : Str) (ns : List K) (ws : List Str) (f : Option Nat)
    (e : Exc) : makeLayer mats key ns ws f ≠ .throw e := by
  unfold makeLayer
  refine bind_no_throw (vget_no_throw _ _ _) fun d => bind_no_throw (vget_no_throw _ _ _) fun t =>
    bind_no_throw ?_ fun g => bind_no_throw (vget_no_throw _ _ _) fun n => ?_
  · cases f with
    | none => intro h; cases h
    | some i => exact vget_no_throw _ _ _
  · intro h; cases h

theorem attEntry_no_throw (s : AttState K R) (x : Str × Str) (e : Exc) : attEntry cv s x ≠ .throw e := by
  unfold attEntry
  dsimp only
  have hret : ∀ a : AttState K R, (pure a : Outcome (AttState K R)) ≠ .throw e := fun a h => by cases h
  split
  · intro h; cases h
  · split_ifs with h1 h2 h3 h4
    · exact bind_no_throw (makeLayer_no_throw _ _ _ _ _ _) fun _ => hret _
    · refine bind_no_throw (vget_no_throw _ _ _) fun n4 => bind_no_throw (vget_no_throw _ _ _) fun n5 =>
        bind_no_throw (vget_no_throw _ _ _) fun n6 => bind_no_throw (vget_no_throw _ _ _) fun n7 =>
        bind_no_throw (vget_no_throw _ _ _) fun w => ?_
      by_cases hw : w = "MULTILAYER".toList
      · rw [if_pos hw]; exact hret _
      · rw [if_neg hw]; exact bind_no_throw (makeLayer_no_throw _ _ _ _ _ _) fun _ => hret _
    · exact bind_no_throw (makeLayer_no_throw _ _ _ _ _ _) fun _ => hret _
    · exact bind_no_throw (makeLayer_no_throw _ _ _ _ _ _) fun _ => hret _
    · intro h; cases h

theorem attLoop_no_throw (es : List (Str × Str)) (s : AttState K R) (e : Exc) : attLoop cv es s ≠ .throw e := by
  induction es generalizing s with
  | nil => intro h; cases h
  | cons x t ih => exact bind_no_throw (attEntry_no_throw cv s x e) fun a => ih a

theorem layerLoop_no_throw (mats : List (Material K)) (es : List (Str × Str)) (done : List (Layer K)) (e : Exc) :
    layerLoop cv mats es done ≠ .throw e := by
  induction es generalizing done with
  | nil => intro h; cases h
  | cons x t ih =>
    rw [layerLoop]
    split
    · exact ih _
    · split_ifs
      · exact bind_no_throw (makeLayer_no_throw _ _ _ _ _ _) fun a => ih _
      · exact ih _

/-- C65, the part that holds: a file rejected with an exception has left the whole configuration unchanged when the
file, its beam section or the beam is at fault (first case). Otherwise the beam is the one of the file, and either the
sample, the reference layer, the filters, the geometry and the detector are unchanged, or every section but
`[concentrations]` was accepted. -/
theorem C65_rejected_partial (c : Config K R) (file : Option Str) (e : Exc)
    (h : (read setArea sort cv c file).1 = .throw e) :
    (read setArea sort cv c file).2 = c ∨
    (∃ r fit b, Ini.read Ini.new file = (.ok (), r) ∧ (fitSection r).1 = .ok fit ∧ beamLists cv fit = .ok b ∧
      Beam.setBeam sort c.beam b.energy b.weight b.scatter [] =
        (.ok (), (read setArea sort cv c file).2.beam) ∧
      (SameSetup (read setArea sort cv c file).2 c ∨ (read setArea sort cv c file).2.referenceLayer = some 0)) := by
  revert h
  unfold read
  split
  · intro; exact Or.inl rfl
  · intro h; cases h
  · intro h; cases h
  · next r hr =>
    dsimp only
    intro h
    rcases orKeep_throw h with ⟨-, h2⟩ | ⟨fit, hfit, heq, h⟩
    · exact Or.inl h2
    rw [heq]
    clear heq
    rcases orKeep_throw h with ⟨-, h2⟩ | ⟨b, hb, heq, h⟩
    · exact Or.inl h2
    rw [heq]
    clear heq
    rcases andThen_cases ((Beam.setBeam sort c.beam b.energy b.weight b.scatter []).1,
      { c with beam := (Beam.setBeam sort c.beam b.energy b.weight b.scatter []).2 }) _ with ⟨h1, heq⟩ | ⟨h1, heq⟩
    swap
    · rw [heq]
      left
      dsimp only at h1 ⊢
      rw [setBeam_throw sort h1]
    rw [heq] at h ⊢
    dsimp only at h1
    right
    refine ⟨r, fit, b, hr, hfit, hb, ?_⟩
    clear heq
    obtain ⟨nb, hnb⟩ : ∃ nb, nb = (Beam.setBeam sort c.beam b.energy b.weight b.scatter []).2 := ⟨_, rfl⟩
    rw [← hnb] at h ⊢
    have hset : Beam.setBeam sort c.beam b.energy b.weight b.scatter [] = (.ok (), nb) := Prod.ext h1 hnb.symm
    rw [hset]
    have same : ∀ (m : List (Material K)) (f a : List (TransmissionTable K)),
        SameSetup { c with beam := nb, materials := m, userBeamFilters := f, userAttenuators := a } c :=
      fun m f a => ⟨rfl, rfl, rfl, rfl, rfl, rfl, rfl, rfl⟩
    rcases andThen_cases _ _ with ⟨h1, heq⟩ | ⟨h1, heq⟩
    swap
    · rw [heq]; exact ⟨rfl, Or.inl (same _ _ _)⟩
    rw [heq] at h ⊢
    clear heq
    rcases andThen_cases _ _ with ⟨h1, heq⟩ | ⟨h1, heq⟩
    swap
    · rw [heq]; exact ⟨rfl, Or.inl (same _ _ _)⟩
    rw [heq] at h ⊢
    clear heq
    rcases andThen_cases _ _ with ⟨h1, heq⟩ | ⟨h1, heq⟩
    swap
    · rw [heq]; exact ⟨rfl, Or.inl (same _ _ _)⟩
    rw [heq] at h ⊢
    clear heq
    rcases orKeep_throw h with ⟨hx, -⟩ | ⟨s, hs, heq, h⟩
    · exact absurd hx (attLoop_no_throw cv _ _ _)
    rw [heq]
    clear heq
    have hbeam := (attLoop_keeps cv hs).2.1
    dsimp only at hbeam
    rcases orKeep_throw h with ⟨hx, -⟩ | ⟨smp, hsmp, heq, h⟩
    · exfalso
      split_ifs at hx
      exact layerLoop_no_throw cv _ _ _ _ hx
    rw [heq]
    exact ⟨by dsimp only; rw [hbeam], Or.inr rfl⟩

end Config
end Fisx
