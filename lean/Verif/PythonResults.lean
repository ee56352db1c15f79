import Verif.PythonTools
import Verif.MultilayerParts
import Verif.MultilayerLemmas
import Verif.LibraryEscape
import Verif.DetectorProps

/-!
# The rates and the escape peaks in Python (C169, C192)

The results of C++ are maps of maps; here they are handed to `toStringKeysAndValues`.
-/

set_option linter.unusedSectionVars false

namespace Fisx

namespace Multilayer

variable {K : Type} [Field K] [LinearOrder K]

/-- A result is a map of maps of maps: at each level every key is there once. -/
structure Maps (r : Result K) : Prop where
  requests : SMap.Sorted r
  layers : ∀ p ∈ r, SMap.Sorted p.2
  lines : ∀ p ∈ r, ∀ q ∈ p.2, SMap.Sorted q.2

theorem maps_nil : Maps ([] : Result K) := ⟨SMap.sorted_nil, by simp, by simp⟩

theorem Maps.layersOf {r : Result K} (h : Maps r) (k : String) : SMap.Sorted ((SMap.find? r k).getD []) := by
  cases hf : SMap.find? r k with
  | none => exact SMap.sorted_nil
  | some m => exact h.layers _ (SMap.mem_of_find? hf)

theorem Maps.linesOf {r : Result K} (h : Maps r) (k : String) (i : Nat) : SMap.Sorted (linesOf r k i) := by
  unfold Multilayer.linesOf
  cases hf : SMap.find? r k with
  | none => exact SMap.sorted_nil
  | some m =>
    simp only [Option.getD_some]
    cases hi : SMap.find? m i with
    | none => exact SMap.sorted_nil
    | some l => exact h.lines _ (SMap.mem_of_find? hf) _ (SMap.mem_of_find? hi)

theorem maps_put {r : Result K} (h : Maps r) (k : String) (i : Nat) (t : Str) (v : Leaf K) : Maps (put r k i t v) := by
  unfold put
  refine ⟨SMap.insert_sorted h.requests _ _, fun p hp => ?_, fun p hp q hq => ?_⟩
  · rcases SMap.mem_insert hp with rfl | hp
    · exact SMap.insert_sorted (h.layersOf k) _ _
    · exact h.layers p hp
  · rcases SMap.mem_insert hp with rfl | hp
    · rcases SMap.mem_insert hq with rfl | hq
      · exact SMap.insert_sorted (h.linesOf k i) _ _
      · cases hf : SMap.find? r k with
        | none => rw [hf] at hq; cases hq
        | some m =>
          rw [hf] at hq
          exact h.lines _ (SMap.mem_of_find? hf) q hq
    · exact h.lines p hp q hq

theorem maps_openLines (env : Env K) (key family : String) (i : Nat) (geometric thr : K) :
    ∀ (fs : List (Str × Factor K)) (r : Result K) (x : List (Str × Tmp K) × Result K), Maps r →
      openLines env key family i geometric thr fs r = .ok x → Maps x.2
  | [], r, x, hr, h => by
    cases h; exact hr
  | (t, f) :: rest, r, x, hr, h => by
    unfold openLines at h
    split_ifs at h
    · exact maps_openLines env key family i geometric thr rest r x hr h
    · exact maps_openLines env key family i geometric thr rest r x hr h
    · cases hl : leaf? r key i t with
      | some l =>
        rw [hl] at h
        obtain ⟨y, hy, h⟩ := Outcome.bind_eq_ok.1 h
        cases h
        exact maps_openLines env key family i geometric thr rest r y hr hy
      | none =>
        rw [hl] at h
        obtain ⟨m, hm, h⟩ := Outcome.bind_eq_ok.1 h
        obtain ⟨d, hd, h⟩ := Outcome.bind_eq_ok.1 h
        obtain ⟨y, hy, h⟩ := Outcome.bind_eq_ok.1 h
        cases h
        exact maps_openLines env key family i geometric thr rest _ y (maps_put hr _ _ _ _) hy

theorem maps_contributions (key : String) (i : Nat) : ∀ (cs : List (Contribution K)) (s : List (Str × Tmp K) × Result K),
    Maps s.2 → Maps (cs.foldl (addContribution key i) s).2
  | [], s, h => h
  | c :: cs, s, h => by
    rw [List.foldl_cons]
    exact maps_contributions key i cs _ (maps_put h _ _ _ _)

theorem maps_escapes (key : String) (i : Nat) (t : Str) (p : Tmp K) : ∀ (esc : List (String × Line K)) (r : Result K),
    Maps r → Maps (depositEscapes key i t p esc r)
  | [], r, h => h
  | (n, e) :: rest, r, h => by
    unfold depositEscapes
    exact maps_escapes key i t p rest _ (maps_put h _ _ _ _)

theorem maps_deposit (env : Env K) (key : String) (i : Nat) (w : K) : ∀ (ls : List (Str × Tmp K)) (r r' : Result K),
    Maps r → deposit env key i w ls r = .ok r' → Maps r'
  | [], r, r', h, e => by cases e; exact h
  | (t, p) :: rest, r, r', h, e => by
    unfold deposit at e
    obtain ⟨esc, _, e⟩ := Outcome.bind_eq_ok.1 e
    exact maps_deposit env key i w rest _ r' (maps_put (maps_escapes key i t p esc r h) _ _ _ _) e

theorem maps_cell (env : Env K) (o : Options K) (rd : RayData K) (req : Xrf.Request) (thr : K) (factors : SMap Str (Factor K))
    (i : Nat) (l : LayerData K) {r r' : Result K} (h : Maps r) (e : cell env o rd req thr factors i l r = .ok r') : Maps r' := by
  unfold cell at e
  by_cases h1 : req.layer ≥ 0 ∧ (i : Int) ≠ req.layer
  · rw [if_pos h1] at e; cases e; exact h
  · rw [if_neg h1] at e
    simp only at e
    generalize (l.composition.find? req.element).getD 0 = w at e
    generalize (if o.useMassFractions then w else 1) = frac at e
    by_cases h2 : frac = 0
    · rw [if_pos h2] at e; cases e; exact h
    · rw [if_neg h2] at e
      obtain ⟨⟨ls, r1⟩, hx, e⟩ := Outcome.bind_eq_ok.1 e
      have hm : Maps r1 := maps_openLines env _ _ i _ thr factors r _ h hx
      simp only at e
      by_cases h3 : ls = []
      · rw [if_pos h3] at e; cases e; exact hm
      · rw [if_neg h3] at e
        obtain ⟨mu, _, e⟩ := Outcome.bind_eq_ok.1 e
        obtain ⟨p, _, e⟩ := Outcome.bind_eq_ok.1 e
        obtain ⟨cs, _, e⟩ := Outcome.bind_eq_ok.1 e
        exact maps_deposit env _ i w _ _ r' (maps_contributions _ i cs (ls.map (fun e => (e.1, primaryOf env l mu p.1 frac e.2)), r1) hm) e

theorem maps_cellLoop (env : Env K) (o : Options K) (rd : RayData K) (req : Xrf.Request) (thr : K)
    (factors : SMap Str (Factor K)) : ∀ (i : Nat) (ls : List (LayerData K)) (r r' : Result K), Maps r →
      cellLoop env o rd req thr factors i ls r = .ok r' → Maps r'
  | _, [], r, r', h, e => by cases e; exact h
  | i, l :: rest, r, r', h, e => by
    unfold cellLoop at e
    obtain ⟨x, hx, e⟩ := Outcome.bind_eq_ok.1 e
    exact maps_cellLoop env o rd req thr factors (i + 1) rest x r' (maps_cell env o rd req thr factors i l h hx) e

theorem maps_requestLoop (env : Env K) (o : Options K) (rd : RayData K) : ∀ (n : Nat) (qs : List (Outcome Xrf.Request))
    (thrs : List K) (r : Result K) (x : List K × Result K), Maps r → requestLoop env o rd n qs thrs r = .ok x → Maps x.2
  | _, [], thrs, r, x, h, e => by cases e; exact h
  | n, q :: rest, thrs, r, x, h, e => by
    unfold requestLoop at e
    obtain ⟨req, _, e⟩ := Outcome.bind_eq_ok.1 e
    obtain ⟨⟨thr, thrs'⟩, _, e⟩ := Outcome.bind_eq_ok.1 e
    simp only at e
    split_ifs at e
    · exact maps_requestLoop env o rd (n + 1) rest _ r x h e
    · obtain ⟨fs, _, e⟩ := Outcome.bind_eq_ok.1 e
      obtain ⟨r', hr', e⟩ := Outcome.bind_eq_ok.1 e
      exact maps_requestLoop env o rd (n + 1) rest _ r' x (maps_cellLoop env o rd req _ fs 0 env.layers r r' h hr') e

theorem maps_rayLoop (env : Env K) (o : Options K) (reqs : List (Outcome Xrf.Request)) : ∀ (rays : List (K × K)) (thrs : List K)
    (m : K) (r r' : Result K), Maps r → rayLoop env o reqs rays thrs m r = .ok r' → Maps r'
  | [], _, _, r, r', h, e => by cases e; exact h
  | (x, w) :: rest, thrs, m, r, r', h, e => by
    unfold rayLoop at e
    simp only at e
    split_ifs at e
    · exact maps_rayLoop env o reqs rest _ _ r r' h e
    · obtain ⟨rd, _, e⟩ := Outcome.bind_eq_ok.1 e
      obtain ⟨y, hy, e⟩ := Outcome.bind_eq_ok.1 e
      exact maps_rayLoop env o reqs rest _ _ y.2 r' (maps_requestLoop env o rd 0 reqs thrs r y h hy) e

theorem fillLoop_maps {V : Type} : ∀ (fuel i : Nat) (m : SMap Nat (SMap Str V)), SMap.Sorted m → (∀ q ∈ m, SMap.Sorted q.2) →
    SMap.Sorted (fillLoop fuel i m) ∧ ∀ q ∈ fillLoop fuel i m, SMap.Sorted q.2
  | 0, _, m, h, h2 => ⟨h, h2⟩
  | fuel + 1, i, m, h, h2 => by
    unfold fillLoop
    split_ifs with h3
    · refine fillLoop_maps fuel (i + 1) m h h2
    · refine fillLoop_maps fuel (i + 1) _ (SMap.insert_sorted h _ _) (fun q hq => ?_)
      rcases SMap.mem_insert hq with rfl | hq
      · exact SMap.sorted_nil
      · exact h2 q hq
    · exact ⟨h, h2⟩

theorem tertiaryLoop_maps (ks : SMap Str K) : ∀ (l : List (Str × Leaf K)) (m : SMap Str (Leaf K)), SMap.Sorted m →
    SMap.Sorted (tertiaryLoop ks l m)
  | [], _, h => h
  | (t, l) :: rest, m, h => by
    unfold tertiaryLoop
    exact tertiaryLoop_maps ks rest _ (SMap.insert_sorted h _ _)

theorem maps_tertiary {r : Result K} (h : Maps r) : Maps (tertiary r) := by
  have h1 : Maps (r.map (fun e => (e.1, fillLayers e.2))) := by
    refine ⟨SMap.sorted_mapVal h.requests (fun e => fillLayers e.2), fun p hp => ?_, fun p hp q hq => ?_⟩
    · obtain ⟨e, he, rfl⟩ := List.mem_map.1 hp
      exact (fillLoop_maps _ 0 e.2 (h.layers e he) (h.lines e he)).1
    · obtain ⟨e, he, rfl⟩ := List.mem_map.1 hp
      exact (fillLoop_maps _ 0 e.2 (h.layers e he) (h.lines e he)).2 q hq
  unfold tertiary
  simp only
  generalize (r.map (fun e => (e.1, fillLayers e.2))) = r1 at h1
  generalize r1.foldl _ _ = ks
  refine ⟨SMap.sorted_mapVal h1.requests (fun e => e.2.map (fun p => (p.1, tertiaryLoop ks p.2 p.2))), fun p hp => ?_,
    fun p hp q hq => ?_⟩
  · obtain ⟨e, he, rfl⟩ := List.mem_map.1 hp
    exact SMap.sorted_mapVal (h1.layers e he) (fun p => tertiaryLoop ks p.2 p.2)
  · obtain ⟨e, he, rfl⟩ := List.mem_map.1 hp
    obtain ⟨f, hf, rfl⟩ := List.mem_map.1 hq
    exact tertiaryLoop_maps ks f.2 f.2 (h1.lines e he f hf)

/-- Whatever is calculated is a map of maps of maps. -/
theorem maps_calculate (env : Env K) (o : Options K) (reqs : List (Outcome Xrf.Request)) (rays : List (K × K)) {r : Result K}
    (h : calculate env o reqs rays = .ok r) : Maps r := by
  unfold calculate at h
  obtain ⟨x, hx, h⟩ := Outcome.bind_eq_ok.1 h
  have := maps_rayLoop env o reqs _ _ _ _ x maps_nil hx
  cases h
  split_ifs
  · exact maps_tertiary this
  · exact this

end Multilayer

namespace Python

/-! ## Specification -/

variable {K : Type}

/-- A map of C++ with names as keys, as a dictionary. -/
def namesDict (m : SMap String (Obj K)) : Obj K := .dict (m.map (fun p => (.text (.bytes p.1), p.2)))

/-- A map of C++ from names to numbers, as a dictionary. -/
def numbersDict (m : SMap String K) : Obj K := namesDict (m.map (fun p => (p.1, .num p.2)))

/-- The result of `getMultilayerFluorescence`, as nested dictionaries: requests, layers, lines. `entries` is the map of C++
behind a line (which of the optional entries, such as "ratio", it has is left open). -/
def resultDict (entries : Multilayer.Leaf K → SMap String K) (r : Multilayer.Result K) : Obj K :=
  namesDict (r.map (fun p => (p.1, .dict (p.2.map (fun q => (.index q.1,
    namesDict (q.2.map (fun l => (String.ofList l.1, numbersDict (entries l.2)))))))))) 

/-- The escape peaks, as nested dictionaries (fisx_elements.cpp:2092-2103). -/
def escapeDict (m : SMap String (Line K)) : Obj K :=
  namesDict (m.map (fun p => (p.1, numbersDict [("energy", p.2.energy), ("rate", p.2.rate)])))

/-! ## Proofs -/

theorem namesDict_bytes {m : SMap String (Obj K)} (hn : (m.map Prod.fst).Nodup) (hv : ∀ p ∈ m, BytesKeys p.2) :
    BytesKeys (namesDict m) := by
  refine .dict _ ?_ ?_ ?_
  · rw [List.map_map]
    have : m.map (Prod.fst ∘ fun p : String × Obj K => (Key.text (.bytes p.1), p.2)) =
        (m.map Prod.fst).map (fun n => Key.text (.bytes n)) := by rw [List.map_map]; rfl
    rw [this]
    exact hn.map (fun a b h => by injection h with h; injection h)
  · intro p hp s h
    obtain ⟨q, _, rfl⟩ := List.mem_map.1 hp
    cases h
  · intro p hp
    obtain ⟨q, hq, rfl⟩ := List.mem_map.1 hp
    exact hv q hq

theorem namesDict_get (m : SMap String (Obj K)) (n : String) :
    (namesDict m).get? (.text (.bytes n)) = m.find? n := by
  unfold namesDict Obj.get?
  induction m with
  | nil => rfl
  | cons p m ih =>
    rw [SMap.find?_cons, ← ih]
    by_cases h : p.1 = n
    · simp [h]
    · simp [h]

theorem find_mapVal {κ V W : Type} [LinearOrder κ] (m : SMap κ V) (g : V → W) (k : κ) :
    SMap.find? (m.map (fun p => (p.1, g p.2))) k = (m.find? k).map g := by
  induction m with
  | nil => rfl
  | cons p m ih =>
    rw [List.map_cons, SMap.find?_cons, SMap.find?_cons, ih]
    split_ifs <;> rfl

theorem numbersDict_bytes {m : SMap String K} (h : m.Sorted) : BytesKeys (numbersDict m) := by
  unfold numbersDict
  refine namesDict_bytes ?_ ?_
  · rw [List.map_map]; exact SMap.keys_nodup h
  · intro p hp
    obtain ⟨q, _, rfl⟩ := List.mem_map.1 hp
    exact .num _

theorem indexDict_get {V : Type} (m : SMap Nat V) (g : V → Obj K) (i : Nat) :
    (Obj.dict (m.map (fun q => (Key.index q.1, g q.2)))).get? (.index i) = (m.find? i).map g := by
  unfold Obj.get?
  induction m with
  | nil => rfl
  | cons p m ih =>
    rw [SMap.find?_cons]
    by_cases h : p.1 = i
    · simp [h]
    · have h' : ¬ (p.1 : Int) = (i : Int) := by exact_mod_cast h
      rw [if_neg h, ← ih]
      simp [h']

theorem ofList_find {V : Type} (m : SMap Str V) (t : Str) :
    SMap.find? (κ := String) (m.map (fun p => (String.ofList p.1, p.2))) (String.ofList t) = m.find? t := by
  induction m with
  | nil => rfl
  | cons p m ih =>
    rw [List.map_cons, SMap.find?_cons, SMap.find?_cons, ih]
    by_cases h : p.1 = t
    · simp [h]
    · have : ¬ String.ofList p.1 = String.ofList t := fun e => h (by simpa using congrArg String.toList e)
      rw [if_neg h, if_neg this]

theorem resultDict_bytes (entries : Multilayer.Leaf K → SMap String K) (he : ∀ l, (entries l).Sorted) {r : Multilayer.Result K}
    (hr : Multilayer.Maps r) : BytesKeys (resultDict entries r) := by
  unfold resultDict
  refine namesDict_bytes ?_ ?_
  · rw [List.map_map]; exact SMap.keys_nodup hr.requests
  · intro p hp
    obtain ⟨q, hq, rfl⟩ := List.mem_map.1 hp
    refine .dict _ ?_ ?_ ?_
    · rw [List.map_map]
      have h1 : q.2.map (Prod.fst ∘ fun q : Nat × SMap Str (Multilayer.Leaf K) => ((Key.index q.1,
          namesDict (q.2.map (fun l => (String.ofList l.1, numbersDict (entries l.2))))) : Key × Obj K)) =
          (q.2.map Prod.fst).map (fun n : Nat => Key.index n) := by rw [List.map_map]; rfl
      rw [h1]
      exact (SMap.keys_nodup (hr.layers q hq)).map (fun a b h => by injection h with h; exact_mod_cast h)
    · intro p hp s h
      obtain ⟨f, _, rfl⟩ := List.mem_map.1 hp
      cases h
    · intro p hp
      obtain ⟨f, hf, rfl⟩ := List.mem_map.1 hp
      refine namesDict_bytes ?_ ?_
      · rw [List.map_map]
        have h1 : f.2.map (Prod.fst ∘ fun l : Str × Multilayer.Leaf K => (String.ofList l.1, numbersDict (entries l.2))) =
            (f.2.map Prod.fst).map String.ofList := by rw [List.map_map]; rfl
        rw [h1]
        exact (SMap.keys_nodup (hr.lines q hq f hf)).map (fun a b h => by simpa using congrArg String.toList h)
      · intro p hp
        obtain ⟨g, _, rfl⟩ := List.mem_map.1 hp
        exact numbersDict_bytes (he g.2)

theorem resultDict_path (entries : Multilayer.Leaf K → SMap String K) (r : Multilayer.Result K) (k : String) (i : Nat) (t : Str)
    (n : String) :
    (resultDict entries r).path? [.text (.bytes k), .index i, .text (.bytes (String.ofList t)), .text (.bytes n)] =
      (Multilayer.leaf? r k i t).bind (fun l => ((entries l).find? n).map Obj.num) := by
  unfold resultDict Multilayer.leaf? Multilayer.linesOf
  simp only [Obj.path?]
  rw [namesDict_get, find_mapVal r (fun v => Obj.dict (v.map (fun q => (Key.index q.1,
    namesDict (q.2.map (fun l => (String.ofList l.1, numbersDict (entries l.2))))))))]
  cases SMap.find? r k with
  | none => rfl
  | some m =>
    simp only [Option.map_some, Option.bind_some, Option.getD_some]
    rw [indexDict_get m (fun v => namesDict (v.map (fun l => (String.ofList l.1, numbersDict (entries l.2)))))]
    cases SMap.find? m i with
    | none => rfl
    | some ls =>
      simp only [Option.map_some, Option.bind_some, Option.getD_some]
      rw [namesDict_get]
      have h1 : (ls.map (fun l => (String.ofList l.1, numbersDict (entries l.2)))) =
          (ls.map (fun l : Str × Multilayer.Leaf K => (l.1, numbersDict (entries l.2)))).map (fun p => (String.ofList p.1, p.2)) := by
        rw [List.map_map]; rfl
      rw [h1, ofList_find, find_mapVal ls (fun v => numbersDict (entries v))]
      cases SMap.find? ls t with
      | none => rfl
      | some l =>
        simp only [Option.map_some, Option.bind_some]
        unfold numbersDict
        rw [namesDict_get, find_mapVal (entries l) Obj.num]
        cases SMap.find? (entries l) n <;> rfl

/-! ## The properties -/

section
variable [Field K] [LinearOrder K]

/-- **C169** The rates in Python: whatever `getMultilayerFluorescence` has calculated, `result["Fe K"][0]["KL3"]["rate"]` (with `str` keys; any request,
layer, line and name of an entry) is the number that the calculation has for this entry of this line in this layer under this request, and it is a
`KeyError` exactly when there is none. No key is a `bytes`. -/
theorem C169_rates (env : Multilayer.Env K) (o : Multilayer.Options K) (reqs : List (Outcome Xrf.Request)) (rays : List (K × K))
    {r : Multilayer.Result K} (h : Multilayer.calculate env o reqs rays = .ok r) (entries : Multilayer.Leaf K → SMap String K)
    (he : ∀ l, (entries l).Sorted) (k : String) (i : Nat) (t : Str) (n : String) :
    (toStringKeysAndValues (resultDict entries r)).path? [.text (.str k), .index i, .text (.str (String.ofList t)), .text (.str n)] =
        (Multilayer.leaf? r k i t).bind (fun l => ((entries l).find? n).map Obj.num) ∧
      StrKeys (toStringKeysAndValues (resultDict entries r)) := by
  have hb := resultDict_bytes entries he (Multilayer.maps_calculate env o reqs rays h)
  refine ⟨?_, (C169_keys _ hb).1⟩
  have := C169_paths _ hb [.text (.bytes k), .index i, .text (.bytes (String.ofList t)), .text (.bytes n)] (by simp)
  rw [resultDict_path] at this
  refine Eq.trans this ?_
  cases Multilayer.leaf? r k i t with
  | none => rfl
  | some l =>
    simp only [Option.bind_some]
    cases (entries l).find? n with
    | none => rfl
    | some x => simp [toStringKeysAndValues]

end

/-- **C169** The escape peaks in Python: `peaks["Si_Ka1 esc"]["energy"]` and `["rate"]` are the energy and the rate of the peak of this name, and it is a
`KeyError` exactly when there is no such peak. -/
theorem C169_escape {m : SMap String (Line K)} (h : m.Sorted) (n : String) :
    (toStringKeysAndValues (escapeDict m)).path? [.text (.str n), .text (.str "energy")] =
        (m.find? n).map (fun l => Obj.num l.energy) ∧
      (toStringKeysAndValues (escapeDict m)).path? [.text (.str n), .text (.str "rate")] =
        (m.find? n).map (fun l => Obj.num l.rate) ∧
      StrKeys (toStringKeysAndValues (escapeDict m)) := by
  have hb : BytesKeys (escapeDict m) := by
    unfold escapeDict
    refine namesDict_bytes ?_ ?_
    · rw [List.map_map]; exact SMap.keys_nodup h
    · intro p hp
      obtain ⟨q, _, rfl⟩ := List.mem_map.1 hp
      refine namesDict_bytes ?_ ?_
      · simp
      · intro p hp
        obtain ⟨s, _, rfl⟩ := List.mem_map.1 hp
        exact .num _
  have hp : ∀ s : String, (escapeDict m).path? [.text (.bytes n), .text (.bytes s)] =
      (m.find? n).bind (fun l => (numbersDict [("energy", l.energy), ("rate", l.rate)]).get? (.text (.bytes s))) := by
    intro s
    unfold escapeDict
    simp only [Obj.path?]
    rw [namesDict_get, find_mapVal m (fun l => numbersDict [("energy", l.energy), ("rate", l.rate)])]
    cases m.find? n with
    | none => rfl
    | some l => simp
  refine ⟨?_, ?_, (C169_keys _ hb).1⟩
  · refine Eq.trans (C169_paths _ hb [.text (.bytes n), .text (.bytes "energy")] (by simp)) ?_
    rw [hp]
    cases m.find? n with
    | none => rfl
    | some l => simp [numbersDict, namesDict, Obj.get?, toStringKeysAndValues]
  · refine Eq.trans (C169_paths _ hb [.text (.bytes n), .text (.bytes "rate")] (by simp)) ?_
    rw [hp]
    cases m.find? n with
    | none => rfl
    | some l => simp [numbersDict, namesDict, Obj.get?, toStringKeysAndValues]

end Python
end Fisx
