import Verif.Python
import Verif.MathL0

/-!
# Nested results, data directories and `PyMath` in Python (C168, C169, C170)
-/

set_option linter.unusedSectionVars false

namespace Fisx
namespace Python

/-! ## Nested dictionaries -/

/-- A key of a dictionary that comes from C++: a text or a number (the index of a layer). -/
inductive Key
  | text (t : Text)
  | index (n : Int)
deriving DecidableEq, Repr

/-- A Python object: a number, or a dictionary in the order of insertion. Simplification: other objects are left out. -/
inductive Obj (K : Type)
  | num (x : K)
  | dict (items : List (Key × Obj K))

/-- Assignment to a key of a dictionary: a known key keeps its place and gets the new value, a new one goes to the end. -/
def assign {V : Type} (d : List (Key × V)) (k : Key) (v : V) : List (Key × V) :=
  match d with
  | [] => [(k, v)]
  | (k', v') :: rest => if k' = k then (k', v) :: rest else (k', v') :: assign rest k v

/-- `dict(...)` of pairs. -/
def mkDict {V : Type} (items : List (Key × V)) : List (Key × V) := items.foldl (fun d p => assign d p.1 p.2) []

/-- FisxCythonTools.py:81: a key that can be decoded (`bytes`) is decoded. -/
def decodeKey : Key → Key
  | .text t => .text (toStr t)
  | .index n => .index n

/-- FisxCythonTools.py:75: a key that can be encoded (`str`) is encoded. -/
def encodeKey : Key → Key
  | .text t => .text (toBytes t)
  | .index n => .index n

mutual

/-- FisxCythonTools.py:78-82, `toStringKeysAndValues`. -/
def toStringKeysAndValues {K : Type} : Obj K → Obj K
  | .num x => .num x
  | .dict items => .dict (mkDict (stringItems items))

/-- FisxCythonTools.py:81-82: the pairs. -/
def stringItems {K : Type} : List (Key × Obj K) → List (Key × Obj K)
  | [] => []
  | (k, v) :: rest => (decodeKey k, toStringKeysAndValues v) :: stringItems rest

end

mutual

/-- FisxCythonTools.py:72-76, `toBytesKeysAndValues`. -/
def toBytesKeysAndValues {K : Type} : Obj K → Obj K
  | .num x => .num x
  | .dict items => .dict (mkDict (bytesItems items))

/-- FisxCythonTools.py:75-76: the pairs. -/
def bytesItems {K : Type} : List (Key × Obj K) → List (Key × Obj K)
  | [] => []
  | (k, v) :: rest => (encodeKey k, toBytesKeysAndValues v) :: bytesItems rest

end

/-! ## The data directory -/

/-- DataDir.py:36-45 and 62-71: the search upwards from the directory of the module. An absolute path is the list of its components, the last
one first; `os.path.dirname` drops the last one, that of the root is the root, and the loop ends there. (The candidates end in
`/fisx/fisx_data`, 15 characters, so that the test of the length is always true.) The result is the last candidate. -/
def searchUp (isDir : List String → Bool) : List String → List String
  | [] => ["fisx_data", "fisx"]
  | d :: up => if isDir ("fisx_data" :: "fisx" :: d :: up) then "fisx_data" :: "fisx" :: d :: up else searchUp isDir up

/-- DataDir.py:30-58: `FISX_DATA_DIR`. `installed` is the name written by setup.py, `here` the directory of the module, `env` the variable of
the environment. -/
def dataDir (isDir : List String → Bool) (installed here : List String) (env : Option (List String)) : Result (List String) :=
  if isDir installed then .value installed
  else if isDir (searchUp isDir here) then .value (searchUp isDir here)
  else match env with
    | none => .raises .ioError
    | some e => if isDir e then .value e else .raises .ioError

/-- The number of characters of an absolute path. -/
def pathLength (d : List String) : Nat := (d.map (fun c => 1 + c.length)).sum

/-- DataDir.py:60-78: `FISX_DOC_DIR`; the first candidate is a directory beside the module, and the search goes on only if its name has more
than 14 characters. -/
def docDir (isDir : List String → Bool) (installed here : List String) (env : Option (List String)) (data : List String) :
    Result (List String) :=
  if isDir installed then .value installed
  else
    let found := if isDir ("fisx_data" :: here) ∨ pathLength ("fisx_data" :: here) ≤ 14 then "fisx_data" :: here else
      match here with
      | [] => ["fisx_data", "fisx"]
      | _ :: up => searchUp isDir up
    if isDir found then .value found
    else match env with
      | none => .value data
      | some e => if isDir e then .value e else .raises .ioError

/-! ## `PyMath` -/

/-- PyMath.pyx:53-57: `deBoerL0` with its default values. -/
noncomputable def pyDeBoerL0 (mu1 mu2 muj : ℝ) (density thickness : Option ℝ) : Result ℝ :=
  guarded (MathFn.deBoerL0 mu1 mu2 muj (density.getD 0) (thickness.getD 0))

/-! ## Theorems -/

section nested
variable {K : Type}

theorem assign_new {V : Type} : ∀ (d : List (Key × V)) (k : Key) (v : V), k ∉ d.map Prod.fst → assign d k v = d ++ [(k, v)]
  | [], _, _, _ => rfl
  | (k', v') :: rest, k, v, h => by
    simp only [List.map_cons, List.mem_cons, not_or] at h
    unfold assign
    rw [if_neg (Ne.symm h.1), assign_new rest k v h.2]
    rfl

theorem mkDict_aux {V : Type} : ∀ (items acc : List (Key × V)), ((acc ++ items).map Prod.fst).Nodup →
    items.foldl (fun d p => assign d p.1 p.2) acc = acc ++ items
  | [], acc, _ => by simp
  | (k, v) :: rest, acc, h => by
    have hk : k ∉ acc.map Prod.fst := by
      rw [List.map_append, List.map_cons, List.nodup_append] at h
      intro hm
      exact h.2.2 _ hm _ (by simp) rfl
    rw [List.foldl_cons, assign_new acc k v hk, mkDict_aux rest]
    · simp
    · simpa using h

theorem mkDict_nodup {V : Type} (items : List (Key × V)) (h : (items.map Prod.fst).Nodup) : mkDict items = items := by
  have := mkDict_aux items [] (by simpa using h)
  simpa [mkDict] using this

/-- The value of a key: what `d[k]` gives. -/
def Obj.get? : Obj K → Key → Option (Obj K)
  | .num _, _ => none
  | .dict items, k => (items.find? (fun p => p.1 = k)).map Prod.snd

/-- The value at the end of a path of keys: what `d[k1][k2]...` gives. -/
def Obj.path? : Obj K → List Key → Option (Obj K)
  | o, [] => some o
  | o, k :: ks => (o.get? k).bind (fun v => v.path? ks)

/-- An object made of C++ maps: each dictionary has every key once, and no key is a `str`. -/
inductive BytesKeys : Obj K → Prop
  | num (x : K) : BytesKeys (.num x)
  | dict (items : List (Key × Obj K)) (hnd : (items.map Prod.fst).Nodup) (hb : ∀ p ∈ items, ∀ s, p.1 ≠ .text (.str s))
      (hr : ∀ p ∈ items, BytesKeys p.2) : BytesKeys (.dict items)

/-- An object of Python made by a user: each dictionary has every key once, and no key is a `bytes`. -/
inductive StrKeys : Obj K → Prop
  | num (x : K) : StrKeys (.num x)
  | dict (items : List (Key × Obj K)) (hnd : (items.map Prod.fst).Nodup) (hb : ∀ p ∈ items, ∀ s, p.1 ≠ .text (.bytes s))
      (hr : ∀ p ∈ items, StrKeys p.2) : StrKeys (.dict items)

theorem stringItems_eq : ∀ items : List (Key × Obj K),
    stringItems items = items.map (fun p => (decodeKey p.1, toStringKeysAndValues p.2))
  | [] => by unfold stringItems; rfl
  | (k, v) :: rest => by unfold stringItems; rw [stringItems_eq rest]; rfl

theorem bytesItems_eq : ∀ items : List (Key × Obj K),
    bytesItems items = items.map (fun p => (encodeKey p.1, toBytesKeysAndValues p.2))
  | [] => by unfold bytesItems; rfl
  | (k, v) :: rest => by unfold bytesItems; rw [bytesItems_eq rest]; rfl

theorem decodeKey_inj {a b : Key} (ha : ∀ s, a ≠ .text (.str s)) (hb : ∀ s, b ≠ .text (.str s)) (h : decodeKey a = decodeKey b) : a = b := by
  cases a with
  | index n => cases b with
    | index m => simpa [decodeKey] using h
    | text t => simp [decodeKey] at h
  | text t => cases b with
    | index m => simp [decodeKey] at h
    | text u =>
      cases t with
      | str s => exact absurd rfl (ha s)
      | bytes s => cases u with
        | str s' => exact absurd rfl (hb s')
        | bytes s' => simpa [decodeKey, toStr] using h

theorem encodeKey_inj {a b : Key} (ha : ∀ s, a ≠ .text (.bytes s)) (hb : ∀ s, b ≠ .text (.bytes s)) (h : encodeKey a = encodeKey b) : a = b := by
  cases a with
  | index n => cases b with
    | index m => simpa [encodeKey] using h
    | text t => simp [encodeKey] at h
  | text t => cases b with
    | index m => simp [encodeKey] at h
    | text u =>
      cases t with
      | bytes s => exact absurd rfl (ha s)
      | str s => cases u with
        | bytes s' => exact absurd rfl (hb s')
        | str s' => simpa [encodeKey, toBytes] using h

theorem nodup_keys {W : Type} (f : Key → Key) (g : Obj K → W) (P : Key → Prop) (hf : ∀ a b, P a → P b → f a = f b → a = b) :
    ∀ items : List (Key × Obj K), (items.map Prod.fst).Nodup → (∀ p ∈ items, P p.1) →
      ((items.map (fun p => (f p.1, g p.2))).map Prod.fst).Nodup
  | [], _, _ => by simp
  | (k, v) :: rest, hnd, hp => by
    simp only [List.map_cons, List.nodup_cons] at hnd ⊢
    refine ⟨?_, nodup_keys f g P hf rest hnd.2 (fun p h => hp p (by simp [h]))⟩
    intro hm
    simp only [List.map_map, List.mem_map, Function.comp] at hm
    obtain ⟨q, hq, he⟩ := hm
    apply hnd.1
    have := hf _ _ (hp q (by simp [hq])) (hp (k, v) (by simp)) he
    simp only at this
    rw [← this]
    exact List.mem_map_of_mem hq

theorem string_dict (items : List (Key × Obj K)) (hnd : (items.map Prod.fst).Nodup) (hb : ∀ p ∈ items, ∀ s, p.1 ≠ .text (.str s)) :
    toStringKeysAndValues (.dict items) = .dict (items.map (fun p => (decodeKey p.1, toStringKeysAndValues p.2))) := by
  conv_lhs => unfold toStringKeysAndValues
  rw [stringItems_eq, mkDict_nodup]
  exact nodup_keys decodeKey toStringKeysAndValues (fun k => ∀ s, k ≠ .text (.str s)) (fun a b ha hb h => decodeKey_inj ha hb h) items hnd hb

theorem bytes_dict (items : List (Key × Obj K)) (hnd : (items.map Prod.fst).Nodup) (hb : ∀ p ∈ items, ∀ s, p.1 ≠ .text (.bytes s)) :
    toBytesKeysAndValues (.dict items) = .dict (items.map (fun p => (encodeKey p.1, toBytesKeysAndValues p.2))) := by
  conv_lhs => unfold toBytesKeysAndValues
  rw [bytesItems_eq, mkDict_nodup]
  exact nodup_keys encodeKey toBytesKeysAndValues (fun k => ∀ s, k ≠ .text (.bytes s)) (fun a b ha hb h => encodeKey_inj ha hb h) items hnd hb

theorem find_mapped {W : Type} (f : Key → Key) (g : Obj K → W) (P : Key → Prop) (hf : ∀ a b, P a → P b → f a = f b → a = b) (k : Key) (hk : P k) :
    ∀ items : List (Key × Obj K), (∀ p ∈ items, P p.1) →
      ((items.map (fun p => (f p.1, g p.2))).find? (fun p => p.1 = f k)) = (items.find? (fun p => p.1 = k)).map (fun p => (f p.1, g p.2))
  | [], _ => rfl
  | (k', v) :: rest, hp => by
    have ih := find_mapped f g P hf k hk rest (fun p h => hp p (by simp [h]))
    by_cases h : k' = k
    · subst h
      simp
    · have h' : f k' ≠ f k := fun hx => h (hf _ _ (hp (k', v) (by simp)) hk hx)
      rw [List.map_cons, List.find?_cons_of_neg (by simpa using h'), List.find?_cons_of_neg (by simpa using h), ih]

theorem string_get {o : Obj K} (h : BytesKeys o) (k : Key) (hk : ∀ s, k ≠ .text (.str s)) :
    (toStringKeysAndValues o).get? (decodeKey k) = (o.get? k).map toStringKeysAndValues := by
  cases h with
  | num x => unfold toStringKeysAndValues; rfl
  | dict items hnd hb hr =>
    rw [string_dict items hnd hb]
    unfold Obj.get?
    dsimp only
    rw [find_mapped decodeKey toStringKeysAndValues (fun k => ∀ s, k ≠ .text (.str s)) (fun a b ha hb h => decodeKey_inj ha hb h) k hk items hb]
    cases items.find? (fun p => decide (p.1 = k)) <;> rfl

theorem BytesKeys.get {o v : Obj K} (h : BytesKeys o) {k : Key} (hv : o.get? k = some v) : BytesKeys v := by
  cases h with
  | num x => cases hv
  | dict items hnd hb hr =>
    unfold Obj.get? at hv
    dsimp only at hv
    cases hf : items.find? (fun p => decide (p.1 = k)) with
    | none => rw [hf] at hv; cases hv
    | some p =>
      rw [hf] at hv
      cases hv
      exact hr p (List.mem_of_find?_eq_some hf)

/-- **C169** A nested result of C++ (the rates of `getMultilayerFluorescence`, excitation factors, escape peaks, ...) can be read in Python with
`str` keys: at every path it has what the C++ result has at this path, numbers unchanged, and nothing where that has nothing. -/
theorem C169_paths (o : Obj K) (h : BytesKeys o) : ∀ ks : List Key, (∀ k ∈ ks, ∀ s, k ≠ .text (.str s)) →
    (toStringKeysAndValues o).path? (ks.map decodeKey) = (o.path? ks).map toStringKeysAndValues
  | [], _ => rfl
  | k :: ks, hk => by
    rw [List.map_cons]
    unfold Obj.path?
    rw [string_get h k (hk k (by simp))]
    cases hv : o.get? k with
    | none => rfl
    | some v =>
      show (toStringKeysAndValues v).path? _ = _
      exact C169_paths v (h.get hv) ks (fun k' h' => hk k' (by simp [h']))

/-- **C169** No key of the result is a `bytes`, every key is there once, and the dictionaries keep their number of entries and their order. -/
theorem C169_keys (o : Obj K) (h : BytesKeys o) : StrKeys (toStringKeysAndValues o) ∧
    ∀ items, o = .dict items → ∃ items', toStringKeysAndValues o = .dict items' ∧ items'.map Prod.fst = items.map (fun p => decodeKey p.1) := by
  refine ⟨?_, ?_⟩
  · induction h with
    | num x => unfold toStringKeysAndValues; exact .num x
    | dict items hnd hb hr ih =>
      rw [string_dict items hnd hb]
      refine .dict _ ?_ ?_ ?_
      · exact nodup_keys decodeKey toStringKeysAndValues (fun k => ∀ s, k ≠ .text (.str s)) (fun a b ha hb h => decodeKey_inj ha hb h)
          items hnd hb
      · intro p hp s
        obtain ⟨q, hq, rfl⟩ := List.mem_map.1 hp
        cases hk : q.1 with
        | index n => simp [decodeKey]
        | text t => cases t <;> simp [decodeKey, toStr]
      · intro p hp
        obtain ⟨q, hq, rfl⟩ := List.mem_map.1 hp
        exact ih q hq
  · rintro items rfl
    cases h with
    | dict _ hnd hb hr =>
      refine ⟨_, string_dict items hnd hb, ?_⟩
      rw [List.map_map]
      rfl

/-- **C169** A dictionary with `str` keys, at all depths, that is handed to C++ and read back is the same dictionary. -/
theorem C169_round_trip (o : Obj K) (h : StrKeys o) : BytesKeys (toBytesKeysAndValues o) ∧ toStringKeysAndValues (toBytesKeysAndValues o) = o := by
  induction h with
  | num x =>
    unfold toBytesKeysAndValues
    refine ⟨.num x, ?_⟩
    unfold toStringKeysAndValues
    rfl
  | dict items hnd hb hr ih =>
    rw [bytes_dict items hnd hb]
    have hnd' := nodup_keys encodeKey toBytesKeysAndValues (fun k => ∀ s, k ≠ .text (.bytes s)) (fun a b ha hb h => encodeKey_inj ha hb h)
      items hnd hb
    have hb' : ∀ p ∈ items.map (fun p => (encodeKey p.1, toBytesKeysAndValues p.2)), ∀ s, p.1 ≠ .text (.str s) := by
      intro p hp s
      obtain ⟨q, hq, rfl⟩ := List.mem_map.1 hp
      cases hk : q.1 with
      | index n => simp [encodeKey]
      | text t => cases t <;> simp [encodeKey, toBytes]
    refine ⟨.dict _ hnd' hb' ?_, ?_⟩
    · intro p hp
      obtain ⟨q, hq, rfl⟩ := List.mem_map.1 hp
      exact (ih q hq).1
    · rw [string_dict _ hnd' hb', List.map_map]
      congr 1
      conv_rhs => rw [← List.map_id items]
      apply List.map_congr_left
      intro q hq
      have h1 := (ih q hq).2
      have h2 : decodeKey (encodeKey q.1) = q.1 := by
        cases hk : q.1 with
        | index n => rfl
        | text t =>
          cases t with
          | str s => rfl
          | bytes s => exact absurd hk (hb q hq s)
      simp only [Function.comp, h1, h2, id]

/-- A result as it comes from C++, with one line in layer 0. -/
example : BytesKeys (Obj.dict [(.text (.bytes "Fe K"), .dict [(.index 0, .dict [(.text (.bytes "KL3"), .dict [(.text (.bytes "rate"), .num (2 : ℚ))])])])]) ∧
    (toStringKeysAndValues (Obj.dict [(.text (.bytes "Fe K"), .dict [(.index 0, .dict [(.text (.bytes "KL3"),
      .dict [(.text (.bytes "rate"), .num (2 : ℚ))])])])])).path? [.text (.str "Fe K"), .index 0, .text (.str "KL3"), .text (.str "rate")]
      = some (.num 2) := by
  have hr : BytesKeys (Obj.dict [(.text (.bytes "Fe K"), .dict [(.index 0, .dict [(.text (.bytes "KL3"), .dict [(.text (.bytes "rate"), .num (2 : ℚ))])])])]) := by
    have one : ∀ (k : Key) (v : Obj ℚ), (∀ s, k ≠ .text (.str s)) → BytesKeys v → BytesKeys (.dict [(k, v)]) := by
      intro k v hk hv
      refine .dict _ (by simp) ?_ ?_
      · intro p hp s
        rw [List.mem_singleton.1 hp]
        exact hk s
      · intro p hp
        rw [List.mem_singleton.1 hp]
        exact hv
    exact one _ _ (by simp) (one _ _ (by simp) (one _ _ (by simp) (one _ _ (by simp) (.num 2))))
  refine ⟨hr, ?_⟩
  have := C169_paths _ hr [.text (.bytes "Fe K"), .index 0, .text (.bytes "KL3"), .text (.bytes "rate")] (by
    intro k hk s
    simp only [List.mem_cons, List.not_mem_nil, or_false] at hk
    rcases hk with rfl | rfl | rfl | rfl <;> simp)
  simp only [List.map_cons, List.map_nil, decodeKey, toStr] at this
  rw [this]
  simp [Obj.path?, Obj.get?, toStringKeysAndValues]

end nested

/-- The candidates of the search: the directories `fisx/fisx_data` in the directory of the module and in all directories above it. -/
def candidates (here : List String) : List (List String) := here.tails.map (fun d => "fisx_data" :: "fisx" :: d)

theorem searchUp_spec (isDir : List String → Bool) : ∀ here : List String,
    (isDir (searchUp isDir here) = true → (candidates here).find? isDir = some (searchUp isDir here)) ∧
    (isDir (searchUp isDir here) = false → (candidates here).find? isDir = none)
  | [] => by
    unfold searchUp candidates
    simp only [List.tails, List.map_cons, List.map_nil]
    refine ⟨fun h => by simp [h], fun h => by simp [h]⟩
  | d :: up => by
    have ih := searchUp_spec isDir up
    have hc : candidates (d :: up) = ("fisx_data" :: "fisx" :: d :: up) :: candidates up := by simp [candidates]
    rw [hc]
    unfold searchUp
    by_cases h : isDir ("fisx_data" :: "fisx" :: d :: up) = true
    · rw [if_pos h]
      refine ⟨fun _ => by rw [List.find?_cons_of_pos h], fun hx => ?_⟩
      rw [h] at hx
      cases hx
    · rw [if_neg h, List.find?_cons_of_neg h]
      exact ih

/-- **C170** The data directory is the one of the installation if it exists, otherwise the nearest `fisx/fisx_data` in the directory of the
module or above it, otherwise the one of the environment; if none of them exists importing it raises an exception. In particular what is
found always exists. -/
theorem C170_data (isDir : List String → Bool) (installed here : List String) (env : Option (List String)) :
    dataDir isDir installed here env = (match ([installed] ++ candidates here ++ env.toList).find? isDir with
      | some d => .value d
      | none => .raises .ioError) ∧
    ∀ d, dataDir isDir installed here env = .value d → isDir d = true := by
  have hs := searchUp_spec isDir here
  have h1 : dataDir isDir installed here env = (match ([installed] ++ candidates here ++ env.toList).find? isDir with
      | some d => .value d
      | none => .raises .ioError) := by
    unfold dataDir
    by_cases hi : isDir installed = true
    · rw [if_pos hi]
      simp [hi]
    · rw [if_neg hi, List.append_assoc, List.singleton_append, List.find?_cons_of_neg hi, List.find?_append]
      cases hx : isDir (searchUp isDir here) with
      | true =>
        rw [hs.1 hx]
        simp
      | false =>
        rw [hs.2 hx]
        cases env with
        | none => simp
        | some e => cases he : isDir e <;> simp [he]
  refine ⟨h1, ?_⟩
  intro d hd
  rw [h1] at hd
  split at hd
  · rename_i e he
    cases hd
    exact List.find?_some he
  · cases hd

/-- **C170** The directory of the documentation, the module being in a directory called `fisx` as it is when installed: the same way, with
`fisx_data` beside the module first, and the data directory at the end when the environment says nothing. -/
theorem C170_doc (isDir : List String → Bool) (installed up : List String) (env : Option (List String)) (data : List String) :
    docDir isDir installed ("fisx" :: up) env data =
      (match ([installed, "fisx_data" :: "fisx" :: up] ++ candidates up ++ env.toList).find? isDir with
      | some d => .value d
      | none => if env.isSome then .raises .ioError else .value data) := by
  unfold docDir
  by_cases hi : isDir installed = true
  · rw [if_pos hi]
    simp [hi]
  rw [if_neg hi, List.append_assoc]
  dsimp only
  rw [List.cons_append, List.find?_cons_of_neg hi, List.cons_append]
  by_cases hb : isDir ("fisx_data" :: "fisx" :: up) = true
  · rw [List.find?_cons_of_pos hb, if_pos (Or.inl hb), if_pos hb]
  have hl : ¬ pathLength ("fisx_data" :: "fisx" :: up) ≤ 14 := by
    have h1 : "fisx_data".length = 9 := by decide
    have h2 : "fisx".length = 4 := by decide
    simp only [pathLength, List.map_cons, List.sum_cons, h1, h2]
    omega
  have hor : ¬ (isDir ("fisx_data" :: "fisx" :: up) = true ∨ pathLength ("fisx_data" :: "fisx" :: up) ≤ 14) := by
    rintro (h | h)
    · exact hb h
    · exact hl h
  simp only [if_neg hor]
  rw [List.find?_cons_of_neg hb, List.nil_append, List.find?_append]
  have hs := searchUp_spec isDir up
  cases hx : isDir (searchUp isDir up) with
  | true => rw [hs.1 hx]; simp
  | false =>
    rw [hs.2 hx]
    cases env with
    | none => simp
    | some e => cases he : isDir e <;> simp [he]

/-- A tree where the data are two levels above the module. -/
example : dataDir (fun d => decide (d = ["fisx_data", "fisx", "home"])) ["nowhere"] ["lib", "src", "home"] none
    = .value ["fisx_data", "fisx", "home"] := by
  decide

/-- **C168** With density and thickness given, `PyMath().deBoerL0` does what `Math::deBoerL0` does; for a layer that is thick
enough this is the thick target limit. -/
theorem C168_given_partial (mu1 mu2 muj density thickness : ℝ) :
    pyDeBoerL0 mu1 mu2 muj (some density) (some thickness) = guarded (MathFn.deBoerL0 mu1 mu2 muj density thickness) ∧
    (0 < mu1 → 0 < mu2 → 0 < muj → 10 < (mu1 + mu2) * (thickness * density) →
      ∃ v, pyDeBoerL0 mu1 mu2 muj (some density) (some thickness) = .value v ∧
        Filter.Tendsto (fun d => ∫ x in (0 : ℝ)..d, ∫ y in x..d,
          Real.exp (-(mu2 * x) - mu1 * y) * ∫ t in Set.Ioi (muj * (y - x)), Real.exp (-t) / t) Filter.atTop (nhds v)) := by
  refine ⟨rfl, ?_⟩
  intro h1 h2 h3 h
  obtain ⟨v, hv, ht⟩ := MathFn.C136_thick_limit_partial h1 h2 h3 h
  refine ⟨v, ?_, ht⟩
  unfold pyDeBoerL0
  simp only [Option.getD_some]
  rw [hv]
  rfl

/-- C168 is violated: the documentation says that the default values (density and thickness 0) give the thick target limit, but they
give 0, for all coefficients, whichever of the two is left out, and the limit is positive. -/
theorem C168_defaults_violated (mu1 mu2 muj : ℝ) (h1 : 0 < mu1) (h2 : 0 < mu2) (h3 : 0 < muj) :
    pyDeBoerL0 mu1 mu2 muj none none = .value 0 ∧
    (∀ thickness, pyDeBoerL0 mu1 mu2 muj none (some thickness) = .value 0) ∧
    (∀ density, pyDeBoerL0 mu1 mu2 muj (some density) none = .value 0) ∧
    ∃ v, 0 < v ∧ Filter.Tendsto (fun d => ∫ x in (0 : ℝ)..d, ∫ y in x..d,
          Real.exp (-(mu2 * x) - mu1 * y) * ∫ t in Set.Ioi (muj * (y - x)), Real.exp (-t) / t) Filter.atTop (nhds v) := by
  refine ⟨?_, fun thickness => ?_, fun density => ?_, ?_⟩
  · unfold pyDeBoerL0 MathFn.deBoerL0
    simp only [Option.getD_none]
    rw [if_neg (by push Not; exact ⟨h1, h2, h3⟩)]
    norm_num [guarded]
  · unfold pyDeBoerL0 MathFn.deBoerL0
    simp only [Option.getD_none]
    rw [if_neg (by push Not; exact ⟨h1, h2, h3⟩)]
    norm_num [guarded]
  · unfold pyDeBoerL0 MathFn.deBoerL0
    simp only [Option.getD_none]
    rw [if_neg (by push Not; exact ⟨h1, h2, h3⟩)]
    norm_num [guarded]
  · have hm : 0 < mu1 + mu2 := by linarith
    have h : 10 < (mu1 + mu2) * (11 / (mu1 + mu2) * 1) := by
      rw [mul_one, mul_div_cancel₀ _ hm.ne']
      norm_num
    obtain ⟨v, hv, ht⟩ := MathFn.C136_thick_limit_partial h1 h2 h3 h
    refine ⟨v, ?_, ht⟩
    unfold MathFn.deBoerL0 at hv
    rw [if_neg (by push Not; exact ⟨h1, h2, h3⟩)] at hv
    simp only at hv
    rw [if_pos h] at hv
    cases hv
    have : 0 < Real.log (1 + mu1 / muj) := Real.log_pos (by have := div_pos h1 h3; linarith)
    positivity

end Python
end Fisx
