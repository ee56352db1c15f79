import Verif.Loader
import Verif.LibraryProps
import Verif.EPDL97
import Verif.SpecfileProps
import Verif.Good

/-!
# Files of shell data (properties C79-C82)
-/

set_option linter.unusedSectionVars false

namespace Fisx
namespace Loader

open Outcome (Good)

variable {K : Type} [Field K] [LinearOrder K] [IsStrictOrderedRing K]

/-! ## Specification -/

/-- The dictionary made of the columns of a row: the entry of a column is its label, no entry for the column `Z`; for the
yields, `omega` for a label beginning with it and no entry for another label of more than four characters. The last of
several columns with the same entry counts. -/
def columns (kind : Kind) (labels : List Str) (row : List K) : SMap Str K :=
  SMap.ofList ((labels.zip row).filterMap (fun p => (kind.key p.1).map (fun k => (k, p.2))))

/-- The calls loading a file amounts to for the element at position `n`: for each subshell whose scan has a row `n`, one
call with the columns of that row. -/
def callsFor (kind : Kind) (n : Nat) : List Str → List (Scan K) → List (Str × SMap Str K)
  | sub :: subs, scan :: scans =>
    match scan.rows[n]? with
    | some row => (sub, columns kind scan.labels row) :: callsFor kind n subs scans
    | none => callsFor kind n subs scans
  | _, _ => []

/-- The calls were made on the element one after the other and all of them returned. -/
inductive Performed (kind : Kind) : Element K → List (Str × SMap Str K) → Element K → Prop
  | nil (e : Element K) : Performed kind e [] e
  | cons {e e1 e2 : Element K} {sub : Str} {d : SMap Str K} {rest : List (Str × SMap Str K)} :
      kind.apply sub e d = (.ok (), e1) → Performed kind e1 rest e2 → Performed kind e ((sub, d) :: rest) e2

/-! ## Rows -/

theorem foldl_find (l : List (Str × K)) (m : SMap Str K) (k : Str) :
    SMap.find? (l.foldl (fun m e => SMap.insert m e.1 e.2) m) k =
      if k ∈ l.map Prod.fst then (SMap.ofList l).find? k else m.find? k := by
  induction l using List.reverseRecOn with
  | nil => simp
  | append_singleton l a ih =>
    unfold SMap.ofList at ih ⊢
    rw [List.foldl_append, List.foldl_append]
    simp only [List.foldl_cons, List.foldl_nil, SMap.find?_insert, List.map_append, List.map_cons, List.map_nil,
      List.mem_append, List.mem_singleton]
    by_cases h : a.1 = k
    · simp [h]
    · have h' : k ≠ a.1 := fun h' => h h'.symm
      simp only [h, if_false, h', or_false]
      exact ih

theorem rowDict_fold (kind : Kind) (row : List K) : ∀ (ls : List Str) (j : Nat) (acc d : SMap Str K),
    row.length = j + ls.length → rowDict kind row ls j acc = .ok d →
    d = ((ls.zip (row.drop j)).filterMap (fun p => (kind.key p.1).map (fun k => (k, p.2)))).foldl
      (fun m e => SMap.insert m e.1 e.2) acc
  | [], _, acc, d, _, h => by
    simp only [rowDict, Outcome.ok.injEq] at h
    subst h
    simp
  | l :: ls, j, acc, d, hl, h => by
    simp only [List.length_cons] at hl
    have hj : j < row.length := by omega
    have hd : row.drop j = row[j] :: row.drop (j + 1) := List.drop_eq_getElem_cons hj
    rw [hd, List.zip_cons_cons, List.filterMap_cons]
    unfold rowDict at h
    cases hk : kind.key l with
    | none =>
      rw [hk] at h
      simp only [Option.map_none]
      exact rowDict_fold kind row ls (j + 1) acc d (by omega) h
    | some k =>
      rw [hk] at h
      dsimp only at h
      rw [vget_lt _ _ hj, Outcome.ok_bind] at h
      simp only [Option.map_some, List.foldl_cons]
      exact rowDict_fold kind row ls (j + 1) _ d (by omega) h

theorem columns_keys (kind : Kind) : ∀ (labels : List Str) (row : List K), row.length = labels.length →
    ((labels.zip row).filterMap (fun p => (kind.key p.1).map (fun k => (k, p.2)))).map Prod.fst
      = labels.filterMap kind.key
  | [], [], _ => rfl
  | l :: labels, v :: row, h => by
    simp only [List.length_cons, Nat.add_right_cancel_iff] at h
    have ih := columns_keys kind labels row h
    rw [List.zip_cons_cons, List.filterMap_cons, List.filterMap_cons]
    cases kind.key l with
    | none => exact ih
    | some k => simp only [Option.map_some, List.map_cons, ih]

theorem rowDict_columns (kind : Kind) (row : List K) (labels : List Str) (acc d : SMap Str K)
    (hl : row.length = labels.length) (hs : acc.Sorted) (ha : ∀ e ∈ acc, e.1 ∈ labels.filterMap kind.key)
    (h : rowDict kind row labels 0 acc = .ok d) : d = columns kind labels row := by
  have := rowDict_fold kind row labels 0 acc d (by omega) h
  subst this
  rw [List.drop_zero]
  refine SMap.ext_find? (SMap.foldl_insert_sorted _ hs) (SMap.ofList_sorted _) fun k => ?_
  rw [foldl_find, columns_keys kind labels row hl]
  split_ifs with hk
  · rfl
  · have h1 : acc.find? k = none := by
      rw [SMap.find?_eq_none_iff]
      rintro e he rfl
      exact hk (ha e he)
    rw [h1]
    symm
    show (SMap.ofList _).find? k = none
    rw [SMap.find?_eq_none_iff]
    rintro e he rfl
    apply hk
    rw [← columns_keys kind labels row hl]
    exact List.mem_map_of_mem (SMap.ofList_mem he)

theorem columns_mem (kind : Kind) (labels : List Str) (row : List K) (hl : row.length = labels.length) :
    ∀ e ∈ columns kind labels row, e.1 ∈ labels.filterMap kind.key := by
  intro e he
  rw [← columns_keys kind labels row hl]
  exact List.mem_map_of_mem (SMap.ofList_mem he)

/-- A scan is applied row by row to the elements. -/
theorem rowsLoop_ok (kind : Kind) (sub : Str) (labels : List Str) : ∀ (rows : List (List K)) (n : Nat) (acc : SMap Str K)
    (els els' : List (LibElement K)), (∀ row ∈ rows, row.length = labels.length) → acc.Sorted →
    (∀ e ∈ acc, e.1 ∈ labels.filterMap kind.key) → rowsLoop kind sub labels rows n acc els = (.ok (), els') →
    els'.length = els.length ∧ ∀ m e, els[m]? = some e →
      (m < n → els'[m]? = some e) ∧ (n ≤ m → match rows[m - n]? with
        | none => els'[m]? = some e
        | some row => ∃ e', kind.apply sub e.data (columns kind labels row) = (.ok (), e') ∧
            els'[m]? = some { e with data := e' })
  | [], n, acc, els, els', _, _, _, h => by
    simp only [rowsLoop, Prod.mk.injEq, true_and] at h
    subst h
    exact ⟨rfl, fun m e he => ⟨fun _ => he, fun _ => by simpa using he⟩⟩
  | row :: rows, n, acc, els, els', hr, hs, ha, h => by
    unfold rowsLoop at h
    split at h
    · rename_i d hd
      have hlen := hr row (by simp)
      have hdc := rowDict_columns kind row labels acc d hlen hs ha hd
      subst hdc
      split at h
      · cases h
      · rename_i x hx
        dsimp only at h
        split at h
        · rename_i hok
          obtain ⟨h1, h2⟩ := rowsLoop_ok kind sub labels rows (n + 1) _ _ _ (fun r hr' => hr r (by simp [hr']))
            (SMap.ofList_sorted _) (columns_mem kind labels row hlen) h
          refine ⟨by rw [h1, List.length_set], fun m e he => ?_⟩
          have hn : n < els.length := (List.getElem?_eq_some_iff.1 hx).1
          by_cases hmn : m = n
          · subst hmn
            rw [he] at hx
            obtain rfl := Option.some.inj hx
            refine ⟨fun h => absurd h (lt_irrefl _), fun _ => ?_⟩
            rw [Nat.sub_self, List.getElem?_cons_zero]
            refine ⟨(kind.apply sub e.data (columns kind labels row)).2, Prod.ext hok rfl, ?_⟩
            exact (h2 m _ (by rw [List.getElem?_set_self hn])).1 (Nat.lt_succ_self _)
          · have h3 := h2 m e (by rw [List.getElem?_set_ne (fun h => hmn h.symm), he])
            refine ⟨fun hlt => h3.1 (by omega), fun hge => ?_⟩
            have : m - n = (m - (n + 1)) + 1 := by omega
            rw [this, List.getElem?_cons_succ]
            exact h3.2 (by omega)
        · rename_i o hno
          simp only [Prod.mk.injEq] at h
          exact absurd h.1 hno
    · cases h
    · cases h
    · cases h

/-! ## Scans -/

theorem readScan_ok {strtod : Str → K} {r : Specfile.Reader} {i : Nat} {labels : List Str} {rows : List (List K)}
    (h : readScan strtod r i = .ok (labels, rows)) : Specfile.getScanLabels r i = .ok labels ∧
    Specfile.getScanData strtod r i = .ok rows ∧ i < rows.length ∧ ∀ row ∈ rows, row.length = labels.length := by
  unfold readScan at h
  obtain ⟨l, h1, h⟩ := Outcome.bind_eq_ok.mp h
  obtain ⟨d, h2, h⟩ := Outcome.bind_eq_ok.mp h
  obtain ⟨row, h3, h⟩ := Outcome.bind_eq_ok.mp h
  split_ifs at h with hne
  simp only [Outcome.pure_eq, Outcome.ok.injEq, Prod.mk.injEq] at h
  obtain ⟨rfl, rfl⟩ := h
  refine ⟨h1, h2, ?_, ?_⟩
  · by_contra hc
    unfold vget at h3
    rw [List.getElem?_eq_none (by omega)] at h3
    cases h3
  · have hrect := (Specfile.C40_rectangular strtod r i d h2).1
    have hmem : row ∈ d := by
      unfold vget at h3
      cases hd : d[i]? with
      | none => rw [hd] at h3; cases h3
      | some x =>
        rw [hd] at h3
        simp only [Outcome.ok.injEq] at h3
        subst h3
        exact List.mem_of_getElem? hd
    intro row' hr'
    have : row'.length = row.length := by
      unfold Specfile.Rect at hrect
      exact hrect row' hr' row hmem
    rw [this]
    simpa using hne

/-- The scans are applied one after the other. -/
theorem scansLoop_ok (kind : Kind) (strtod : Str → K) (r : Specfile.Reader) : ∀ (subs : List Str) (i : Nat)
    (els els' : List (LibElement K)), scansLoop kind strtod r subs i els = (.ok (), els') →
    ∃ scans : List (Scan K), scans.length = subs.length ∧
      (∀ j scan, scans[j]? = some scan → Specfile.getScanLabels r ((i + j : Nat) : Int) = .ok scan.labels ∧
        Specfile.getScanData strtod r ((i + j : Nat) : Int) = .ok scan.rows) ∧
      els'.length = els.length ∧ ∀ n e, els[n]? = some e →
        ∃ e', Performed kind e.data (callsFor kind n subs scans) e' ∧ els'[n]? = some { e with data := e' }
  | [], i, els, els', h => by
    simp only [scansLoop, Prod.mk.injEq, true_and] at h
    subst h
    exact ⟨[], rfl, by simp, rfl, fun n e he => ⟨e.data, .nil _, he⟩⟩
  | sub :: subs, i, els, els', h => by
    unfold scansLoop at h
    split at h
    · rename_i labels rows hscan
      obtain ⟨h1, h2, -, h4⟩ := readScan_ok hscan
      dsimp only at h
      split at h
      · rename_i hok
        obtain ⟨a1, a2⟩ := rowsLoop_ok kind sub labels rows 0 [] els _ h4 SMap.sorted_nil (by simp)
          (Prod.ext hok rfl)
        obtain ⟨scans, b1, b2, b3, b4⟩ := scansLoop_ok kind strtod r subs (i + 1) _ _ h
        refine ⟨⟨labels, rows⟩ :: scans, by simp [b1], ?_, by rw [b3, a1], ?_⟩
        · rintro (_ | j) scan hj
          · simp only [List.getElem?_cons_zero, Option.some.injEq] at hj
            subst hj
            exact ⟨h1, h2⟩
          · rw [List.getElem?_cons_succ] at hj
            have := b2 j scan hj
            rwa [show i + 1 + j = i + (j + 1) by omega] at this
        · intro n e he
          have h5 := (a2 n e he).2 (Nat.zero_le _)
          rw [Nat.sub_zero] at h5
          unfold callsFor
          dsimp only
          cases hrow : rows[n]? with
          | none =>
            rw [hrow] at h5
            exact b4 n e h5
          | some row =>
            rw [hrow] at h5
            obtain ⟨e1, h6, h7⟩ := h5
            obtain ⟨e2, h8, h9⟩ := b4 n _ h7
            exact ⟨e2, .cons h6 h8, h9⟩
      · rename_i o hno
        simp only [Prod.mk.injEq] at h
        exact absurd h.1 hno
    · cases h
    · cases h
    · cases h

/-! ## Specification of the subshells -/

/-- The subshells of the main shells, in the order of the scans of a file. -/
def HasSubshells (main : String) (subs : List Str) : Prop :=
  (main, subs) ∈ [("K", ["K".toList]), ("L", ["L1".toList, "L2".toList, "L3".toList]),
    ("M", ["M1".toList, "M2".toList, "M3".toList, "M4".toList, "M5".toList])]

theorem has_iff {main : String} {subs : List Str} : HasSubshells main subs ↔ subshellsOf main = some subs := by
  unfold HasSubshells subshellsOf
  simp only [List.mem_cons, Prod.mk.injEq, List.not_mem_nil, or_false]
  constructor
  · rintro (⟨rfl, rfl⟩ | ⟨rfl, rfl⟩ | ⟨rfl, rfl⟩) <;> rfl
  · intro h
    split_ifs at h with h1 h2 h3
    · exact Or.inl ⟨h1, (Option.some.inj h).symm⟩
    · exact Or.inr (Or.inl ⟨h2, (Option.some.inj h).symm⟩)
    · exact Or.inr (Or.inr ⟨h3, (Option.some.inj h).symm⟩)

/-! ## C79 -/

/-- Used for `C79_load`. -/
theorem loadCalls (kind : Kind) (strtod : Str → K) (s s' : State K) (main fileName : String) (text : Option Str)
    (h : load kind strtod s main fileName text = (.ok (), s')) :
    ∃ (subs : List Str) (scans : List (Scan K)), subshellsOf main = some subs ∧ scans.length = subs.length ∧
      (∀ (j : Nat) scan, scans[j]? = some scan →
        Specfile.getScanLabels (Specfile.setFileName (Specfile.File.ofText text)) (j : Int) = .ok scan.labels ∧
        Specfile.getScanData strtod (Specfile.setFileName (Specfile.File.ofText text)) (j : Int) = .ok scan.rows) ∧
      s'.elements.length = s.elements.length ∧
      (∀ n e, s.elements[n]? = some e → ∃ e', Performed kind e.data (callsFor kind n subs scans) e' ∧
        s'.elements[n]? = some { e with data := e' }) ∧
      fileOf s' kind main = .ok fileName ∧
      ∀ k m, (k, m) ≠ (kind, main) → fileOf s' k m = fileOf s k m := by
  unfold load at h
  split at h
  · cases h
  · rename_i subs hsubs
    dsimp only at h
    split_ifs at h with hn
    · cases h
    split at h
    · rename_i hok
      simp only [Prod.mk.injEq, true_and] at h
      subst h
      obtain ⟨scans, b1, b2, b3, b4⟩ := scansLoop_ok kind strtod _ subs 0 _ _ (Prod.ext hok rfl)
      refine ⟨subs, scans, hsubs, b1, fun j scan hj => by simpa using b2 j scan hj, b3, b4, ?_, ?_⟩
      · simp [fileOf]
      · intro k m hkm
        unfold fileOf
        dsimp only
        by_cases hk : k = kind
        · subst hk
          have : main ≠ m := fun h => hkm (by rw [h])
          simp [this]
        · simp [hk]
    · rename_i o hno
      simp only [Prod.mk.injEq] at h
      exact absurd h.1 hno

/-- C79: loading a file of yields or transitions for a main shell is calling the setter of the elements: scan `i` belongs
to subshell `i`, and its row `n` to the element at position `n`. Names, masses and the other elements stay; the name of the
file is remembered. -/
theorem C79_load (kind : Kind) (strtod : Str → K) (s s' : State K) (main fileName : String) (text : Option Str)
    (h : load kind strtod s main fileName text = (.ok (), s')) :
    ∃ (subs : List Str) (scans : List (Scan K)), HasSubshells main subs ∧ scans.length = subs.length ∧
      (∀ (j : Nat) scan, scans[j]? = some scan →
        Specfile.getScanLabels (Specfile.setFileName (Specfile.File.ofText text)) (j : Int) = .ok scan.labels ∧
        Specfile.getScanData strtod (Specfile.setFileName (Specfile.File.ofText text)) (j : Int) = .ok scan.rows) ∧
      s'.elements.length = s.elements.length ∧
      (∀ n e, s.elements[n]? = some e → ∃ e', Performed kind e.data (callsFor kind n subs scans) e' ∧
        s'.elements[n]? = some { e with data := e' }) ∧
      fileOf s' kind main = .ok fileName ∧
      ∀ k m, (k, m) ≠ (kind, main) → fileOf s' k m = fileOf s k m := by
  obtain ⟨subs, scans, h1, h2⟩ := loadCalls kind strtod s s' main fileName text h
  exact ⟨subs, scans, has_iff.2 h1, h2⟩

theorem constantsLoop_ok : ∀ (l : List (Str × K)) (c c' : SMap Str K), Shell.constantsLoop l c = (.ok (), c') →
    c' = l.foldl (fun m e => SMap.insert m e.1 e.2) c
  | [], c, c', h => by
    simp only [Shell.constantsLoop, Prod.mk.injEq, true_and] at h
    exact h.symm
  | (k, v) :: rest, c, c', h => by
    unfold Shell.constantsLoop at h
    split_ifs at h with hm
    · exact constantsLoop_ok rest _ c' h
    · cases h

theorem setShellConstants_ok {e e' : Element K} {sub : Str} {d : SMap Str K}
    (h : e.setShellConstants sub d = (.ok (), e')) : ∃ sh c, e.shells.find? sub = some sh ∧
      c = d.foldl (fun m e => SMap.insert m e.1 e.2) sh.constants ∧
      e'.shells = e.shells.insert sub { sh with constants := c } := by
  unfold Element.setShellConstants at h
  split at h
  · cases h
  · rename_i sh hsh
    dsimp only at h
    split at h
    · rename_i hok
      simp only [Prod.mk.injEq, true_and] at h
      subst h
      exact ⟨sh, _, hsh, constantsLoop_ok d _ _ (Prod.ext hok rfl), rfl⟩
    · rename_i o hno
      simp only [Prod.mk.injEq] at h
      exact absurd h.1 hno

theorem performed_other {e e' : Element K} {calls : List (Str × SMap Str K)} (h : Performed .constants e calls e') (k : Str)
    (hk : k ∉ calls.map Prod.fst) : e'.shells.find? k = e.shells.find? k := by
  induction h with
  | nil => rfl
  | cons h1 _ ih =>
    simp only [List.map_cons, List.mem_cons, not_or] at hk
    obtain ⟨sh, c, -, -, h4⟩ := setShellConstants_ok h1
    rw [ih hk.2, h4, SMap.find?_insert, if_neg (fun h => hk.1 h.symm)]

theorem performed_constants {e e' : Element K} {calls : List (Str × SMap Str K)} (h : Performed .constants e calls e')
    (hnd : (calls.map Prod.fst).Nodup) (sub : Str) (d : SMap Str K) (hc : (sub, d) ∈ calls) (hd : d.Sorted) :
    ∃ sh sh', e.shells.find? sub = some sh ∧ e'.shells.find? sub = some sh' ∧
      ∀ k, sh'.constants.find? k = match d.find? k with
        | some v => some v
        | none => sh.constants.find? k := by
  induction h with
  | nil => simp at hc
  | cons h1 h2 ih =>
    rename_i e e1 e2 sub0 d0 rest
    simp only [List.map_cons, List.nodup_cons] at hnd
    obtain ⟨sh, c, a1, a2, a3⟩ := setShellConstants_ok h1
    rcases List.mem_cons.1 hc with hc | hc
    · simp only [Prod.mk.injEq] at hc
      obtain ⟨rfl, rfl⟩ := hc
      refine ⟨sh, { sh with constants := c }, a1, ?_, fun k => ?_⟩
      · rw [performed_other h2 sub hnd.1, a3, SMap.find?_insert, if_pos rfl]
      · show c.find? k = _
        rw [a2, SMap.foldl_insert_find? _ _ _ (SMap.keys_nodup hd)]
        cases d.find? k <;> rfl
    · obtain ⟨sh1, sh2, b1, b2, b3⟩ := ih hnd.2 hc
      have hne : sub0 ≠ sub := by
        rintro rfl
        exact hnd.1 (List.mem_map_of_mem hc)
      rw [a3, SMap.find?_insert, if_neg hne] at b1
      exact ⟨sh1, sh2, b1, b2, b3⟩

theorem callsFor_mem (kind : Kind) (n : Nat) : ∀ (subs : List Str) (scans : List (Scan K)) (i : Nat) (sub : Str)
    (scan : Scan K) (row : List K), subs[i]? = some sub → scans[i]? = some scan → scan.rows[n]? = some row →
    (sub, columns kind scan.labels row) ∈ callsFor kind n subs scans
  | [], _, i, sub, scan, row, h1, _, _ => by simp at h1
  | _ :: _, [], i, sub, scan, row, _, h2, _ => by simp at h2
  | s :: subs, c :: scans, 0, sub, scan, row, h1, h2, h3 => by
    simp only [List.getElem?_cons_zero, Option.some.injEq] at h1 h2
    subst h1 h2
    unfold callsFor
    rw [h3]
    simp
  | s :: subs, c :: scans, i + 1, sub, scan, row, h1, h2, h3 => by
    rw [List.getElem?_cons_succ] at h1 h2
    have := callsFor_mem kind n subs scans i sub scan row h1 h2 h3
    unfold callsFor
    split
    · exact List.mem_cons_of_mem _ this
    · exact this

theorem callsFor_sublist (kind : Kind) (n : Nat) : ∀ (subs : List Str) (scans : List (Scan K)),
    ((callsFor kind n subs scans).map Prod.fst).Sublist subs
  | [], _ => by simp [callsFor]
  | _ :: _, [] => by simp [callsFor]
  | s :: subs, c :: scans => by
    unfold callsFor
    have ih := callsFor_sublist kind n subs scans
    split
    · exact ih.cons_cons _
    · exact ih.cons _

theorem subshells_nodup {main : String} {subs : List Str} (h : subshellsOf main = some subs) : subs.Nodup := by
  unfold subshellsOf at h
  split_ifs at h <;> (simp only [Option.some.injEq] at h; subst h; decide)

/-- Used for `C79_yields`. -/
theorem loadYields (strtod : Str → K) (s s' : State K) (main fileName : String) (text : Option Str)
    (h : load .constants strtod s main fileName text = (.ok (), s')) (subs : List Str) (hsubs : subshellsOf main = some subs)
    (i n : Nat) (sub : Str) (labels : List Str) (rows : List (List K)) (row : List K) (hi : subs[i]? = some sub)
    (hlab : Specfile.getScanLabels (Specfile.setFileName (Specfile.File.ofText text)) (i : Int) = .ok labels)
    (hrows : Specfile.getScanData strtod (Specfile.setFileName (Specfile.File.ofText text)) (i : Int) = .ok rows)
    (hrow : rows[n]? = some row) (e : LibElement K) (he : s.elements[n]? = some e) :
    ∃ e' sh sh', s'.elements[n]? = some { e with data := e' } ∧ e.data.shells.find? sub = some sh ∧
      e'.shells.find? sub = some sh' ∧
      ∀ k, sh'.constants.find? k = match (columns .constants labels row).find? k with
        | some v => some v
        | none => sh.constants.find? k := by
  obtain ⟨subs', scans, h1, h2, h3, -, h5, -⟩ := loadCalls .constants strtod s s' main fileName text h
  rw [hsubs] at h1
  obtain rfl := Option.some.inj h1
  obtain ⟨e', h6, h7⟩ := h5 n e he
  have hlt : i < scans.length := by rw [h2]; exact (List.getElem?_eq_some_iff.1 hi).1
  have hscan : scans[i]? = some scans[i] := List.getElem?_eq_getElem hlt
  obtain ⟨a1, a2⟩ := h3 i _ hscan
  rw [hlab] at a1
  rw [hrows] at a2
  simp only [Outcome.ok.injEq] at a1 a2
  have hm := callsFor_mem .constants n subs scans i sub scans[i] row hi hscan (by rw [← a2]; exact hrow)
  rw [← a1] at hm
  obtain ⟨sh, sh', b1, b2, b3⟩ := performed_constants h6
    ((callsFor_sublist .constants n subs scans).nodup (subshells_nodup hsubs)) sub _ hm (SMap.ofList_sorted _)
  exact ⟨e', sh, sh', h7, b1, b2, b3⟩

/-- C79: after loading a file of yields, the yields of subshell `i` of the element at position `n` are those of row `n` of
scan `i` (columns `omega...`, `f12`, ...), the others being kept. -/
theorem C79_yields (strtod : Str → K) (s s' : State K) (main fileName : String) (text : Option Str)
    (h : load .constants strtod s main fileName text = (.ok (), s')) (subs : List Str) (hsubs : HasSubshells main subs)
    (i n : Nat) (sub : Str) (labels : List Str) (rows : List (List K)) (row : List K) (hi : subs[i]? = some sub)
    (hlab : Specfile.getScanLabels (Specfile.setFileName (Specfile.File.ofText text)) (i : Int) = .ok labels)
    (hrows : Specfile.getScanData strtod (Specfile.setFileName (Specfile.File.ofText text)) (i : Int) = .ok rows)
    (hrow : rows[n]? = some row) (e : LibElement K) (he : s.elements[n]? = some e) :
    ∃ e' sh sh', s'.elements[n]? = some { e with data := e' } ∧ e.data.shells.find? sub = some sh ∧
      e'.shells.find? sub = some sh' ∧
      ∀ k, sh'.constants.find? k = match (columns .constants labels row).find? k with
        | some v => some v
        | none => sh.constants.find? k := by
  exact loadYields strtod s s' main fileName text h subs (has_iff.1 hsubs) i n sub labels rows row hi hlab hrows hrow e he

/-- Used for `C79_refused`. -/
theorem loadRefused (kind : Kind) (strtod : Str → K) (s : State K) (main fileName : String) (text : Option Str) :
    (main ≠ "K" ∧ main ≠ "L" ∧ main ≠ "M" → load kind strtod s main fileName text = (.throw .invalidArgument, s)) ∧
    (∀ subs, subshellsOf main = some subs →
      text = none ∨ Specfile.getNumberOfScans (Specfile.setFileName (Specfile.File.ofText text)) ≠ subs.length →
      load kind strtod s main fileName text = (.throw .ioFailure, s)) := by
  constructor
  · rintro ⟨h1, h2, h3⟩
    unfold load subshellsOf
    rw [if_neg h1, if_neg h2, if_neg h3]
  · intro subs hsubs h
    unfold load
    rw [hsubs]
    dsimp only
    rw [if_pos]
    rcases h with rfl | h
    · have h0 : Specfile.getNumberOfScans (Specfile.setFileName (Specfile.File.ofText none)) = 0 := rfl
      rw [h0]
      unfold subshellsOf at hsubs
      split_ifs at hsubs <;> (simp only [Option.some.injEq] at hsubs; subst hsubs; simp)
    · exact h

/-- C79: an unknown main shell, a file that cannot be opened and a file with the wrong number of scans are refused, and
nothing changes. -/
theorem C79_refused (kind : Kind) (strtod : Str → K) (s : State K) (main fileName : String) (text : Option Str) :
    (main ≠ "K" ∧ main ≠ "L" ∧ main ≠ "M" → load kind strtod s main fileName text = (.throw .invalidArgument, s)) ∧
    (∀ subs, HasSubshells main subs →
      text = none ∨ Specfile.getNumberOfScans (Specfile.setFileName (Specfile.File.ofText text)) ≠ subs.length →
      load kind strtod s main fileName text = (.throw .ioFailure, s)) := by
  obtain ⟨h1, h2⟩ := loadRefused kind strtod s main fileName text
  exact ⟨h1, fun subs hs => h2 subs (has_iff.1 hs)⟩

/-! ## C81: no invalid memory access -/

theorem radiativeLoop_good (name : Str) : ∀ (labels : List Str) (values : List K) (i : Nat) (m : SMap Str K),
    i + labels.length ≤ values.length → Good true (Shell.radiativeLoop name labels values i m).1
  | [], _, _, _, _ => trivial
  | l :: rest, values, i, m, h => by
    simp only [List.length_cons] at h
    unfold Shell.radiativeLoop
    split
    · exact rfl
    · rw [vget_lt values i (by omega)]
      exact radiativeLoop_good name rest values (i + 1) _ (by omega)

theorem nonradiativeLoop_good : ∀ (labels : List Str) (values : List K) (i : Nat) (m : SMap Str K),
    i + labels.length ≤ values.length → Good true (Shell.nonradiativeLoop labels values i m).1
  | [], _, _, _, _ => trivial
  | l :: rest, values, i, m, h => by
    simp only [List.length_cons] at h
    unfold Shell.nonradiativeLoop
    rw [vget_lt values i (by omega)]
    exact nonradiativeLoop_good rest values (i + 1) _ (by omega)

theorem constantsLoop_good : ∀ (l : List (Str × K)) (c : SMap Str K), Good true (Shell.constantsLoop l c).1
  | [], _ => trivial
  | (k, v) :: rest, c => by
    unfold Shell.constantsLoop
    split_ifs
    · exact constantsLoop_good rest _
    · exact rfl

theorem checkSubshell_good (e : Element K) (sub : Str) : Good true (e.checkSubshell sub) := by
  unfold Element.checkSubshell
  split
  · exact rfl
  · split_ifs
    · exact rfl
    · split <;> first | exact rfl | trivial

theorem apply_good (kind : Kind) (sub : Str) (e : Element K) (d : SMap Str K) : Good true (kind.apply sub e d).1 := by
  have hc := checkSubshell_good e sub
  cases kind with
  | constants =>
    show Good true (e.setShellConstants sub d).1
    unfold Element.setShellConstants
    split
    · exact rfl
    · rename_i sh hsh
      have h : Good true (sh.setShellConstants d).1 := constantsLoop_good d _
      dsimp only
      split
      · trivial
      · exact h
  | radiative =>
    show Good true (if Element.at0 e.binding sub > 0 then e.setRadiativeMap sub d else (.ok (), e)).1
    split_ifs
    · unfold Element.setRadiativeMap
      split
      · rename_i sh hsh
        have h : Good true (sh.setRadiativeMap d).1 := by
          have := radiativeLoop_good sh.name (d.map Prod.fst) (d.map Prod.snd) 0 [] (by simp)
          unfold Shell.setRadiativeMap Shell.setRadiative
          generalize Shell.radiativeLoop sh.name (d.map Prod.fst) (d.map Prod.snd) 0 [] = q at this
          rcases q with ⟨o, m⟩
          cases o <;> exact this
        dsimp only
        split
        · trivial
        · exact h
      · exact rfl
      · rename_i u hu; rw [hu] at hc; exact hc
      · rename_i hu; rw [hu] at hc; exact hc
    · trivial
  | nonradiative =>
    show Good true (if Element.at0 e.binding sub > 0 then e.setNonradiativeMap sub d else (.ok (), e)).1
    split_ifs
    · unfold Element.setNonradiativeMap Element.setNonradiative
      split
      · rename_i sh hsh
        have h : Good true (sh.setNonradiative (d.map Prod.fst) (d.map Prod.snd)).1 := by
          have := nonradiativeLoop_good (d.map Prod.fst) (d.map Prod.snd) 0 [] (by simp)
          unfold Shell.setNonradiative
          generalize Shell.nonradiativeLoop (d.map Prod.fst) (d.map Prod.snd) 0 [] = q at this
          rcases q with ⟨o, m⟩
          cases o <;> exact this
        dsimp only
        split
        · trivial
        · exact h
      · exact rfl
      · rename_i u hu; rw [hu] at hc; exact hc
      · rename_i hu; rw [hu] at hc; exact hc
    · trivial

theorem rowDict_good (kind : Kind) (row : List K) : ∀ (ls : List Str) (j : Nat) (acc : SMap Str K),
    j + ls.length ≤ row.length → Good true (rowDict kind row ls j acc)
  | [], _, _, _ => trivial
  | l :: ls, j, acc, h => by
    simp only [List.length_cons] at h
    unfold rowDict
    split
    · exact rowDict_good kind row ls (j + 1) acc (by omega)
    · rw [vget_lt row j (by omega), Outcome.ok_bind]
      exact rowDict_good kind row ls (j + 1) _ (by omega)

theorem rowsLoop_good (kind : Kind) (sub : Str) (labels : List Str) : ∀ (rows : List (List K)) (n : Nat)
    (acc : SMap Str K) (els : List (LibElement K)), (∀ row ∈ rows, row.length = labels.length) →
    n + rows.length ≤ els.length → Good true (rowsLoop kind sub labels rows n acc els).1
  | [], _, _, _, _, _ => trivial
  | row :: rows, n, acc, els, hr, hn => by
    simp only [List.length_cons] at hn
    have hrow := rowDict_good kind row labels 0 acc (by rw [hr row (by simp)]; omega)
    unfold rowsLoop
    split
    · rw [List.getElem?_eq_getElem (by omega)]
      dsimp only
      rename_i d hd
      have h := apply_good kind sub els[n].data d
      split
      · exact rowsLoop_good kind sub labels rows (n + 1) _ _ (fun r hr' => hr r (by simp [hr']))
          (by rw [List.length_set]; omega)
      · exact h
    · exact rfl
    · rename_i u hu; rw [hu] at hrow; exact hrow
    · rename_i hu; rw [hu] at hrow; exact hrow

theorem rowsLoop_length (kind : Kind) (sub : Str) (labels : List Str) : ∀ (rows : List (List K)) (n : Nat)
    (acc : SMap Str K) (els : List (LibElement K)), (rowsLoop kind sub labels rows n acc els).2.length = els.length
  | [], _, _, _ => rfl
  | row :: rows, n, acc, els => by
    unfold rowsLoop
    split
    · split
      · rfl
      · dsimp only
        split
        · rw [rowsLoop_length kind sub labels rows]
          simp
        · simp
    all_goals rfl

theorem getScanLabels_good (f : Specfile.File) (i : Int) : Good true (Specfile.getScanLabels (Specfile.setFileName f) i) := by
  unfold Specfile.getScanLabels
  refine Good.ite (fun _ => rfl) fun h => ?_
  unfold Specfile.getNumberOfScans at h
  rw [not_or] at h
  refine (vget_good (by omega)).bind fun p _ => ?_
  refine Good.ite (fun _ => rfl) fun _ => ?_
  dsimp only
  refine Good.ite (fun _ => rfl) fun _ => ?_
  exact Good.ite (fun _ => rfl) fun _ => trivial

theorem scansLoop_good (kind : Kind) (strtod : Str → K) (f : Specfile.File) : ∀ (subs : List Str) (i : Nat)
    (els : List (LibElement K)),
    (∀ j, i ≤ j → j < i + subs.length → ∀ rows, Specfile.getScanData strtod (Specfile.setFileName f) (j : Int) = .ok rows →
      j < rows.length ∧ rows.length ≤ els.length) →
    Good true (scansLoop kind strtod (Specfile.setFileName f) subs i els).1
  | [], _, _, _ => trivial
  | sub :: subs, i, els, h => by
    have hread : Good true (readScan strtod (Specfile.setFileName f) i) := by
      unfold readScan
      refine (getScanLabels_good f i).bind fun labels _ => ?_
      refine Good.bind ?_ fun rows hrows => ?_
      · rcases Specfile.C40_outcomes strtod f i with ⟨r, h⟩ | h | h <;> rw [h] <;> trivial
      · refine (vget_good (h i (le_refl _) (by simp) rows hrows).1).bind fun row _ => ?_
        exact Good.ite (fun _ => rfl) fun _ => trivial
    unfold scansLoop
    split
    · rename_i labels rows hscan
      obtain ⟨-, h2, -, h4⟩ := readScan_ok hscan
      have hlen := (h i (le_refl _) (by simp) rows h2).2
      have hrows := rowsLoop_good kind sub labels rows 0 [] els h4 (by omega)
      dsimp only
      split
      · refine scansLoop_good kind strtod f subs (i + 1) _ fun j h1 h2 rows' hr => ?_
        rw [rowsLoop_length]
        exact h j (by omega) (by simp only [List.length_cons]; omega) rows' hr
      · exact hrows
    · exact rfl
    · rename_i u hu; rw [hu] at hread; exact hread
    · rename_i hu; rw [hu] at hread; exact hread

/-- C81, the part that holds: loading a file returns or throws, without invalid memory access, if scan `i` (counted from 0)
has more than `i` rows and no scan has more rows than there are elements. -/
theorem C81_safe_partial (kind : Kind) (strtod : Str → K) (s : State K) (main fileName : String) (text : Option Str)
    (h : ∀ (j : Nat) rows, Specfile.getScanData strtod (Specfile.setFileName (Specfile.File.ofText text)) (j : Int) = .ok rows →
      j < rows.length ∧ rows.length ≤ s.elements.length) :
    (load kind strtod s main fileName text).1 = .ok () ∨ ∃ x, (load kind strtod s main fileName text).1 = .throw x := by
  have hg : Good true (load kind strtod s main fileName text).1 := by
    unfold load
    split
    · exact rfl
    · rename_i subs hsubs
      dsimp only
      split_ifs
      · exact rfl
      · have := scansLoop_good kind strtod (Specfile.File.ofText text) subs 0 s.elements
          (fun j _ _ rows hr => h j rows hr)
        split
        · trivial
        · exact this
  rcases Outcome.good_true_iff.mp hg with ⟨⟨⟩, h⟩ | h
  · exact Or.inl h
  · exact Or.inr h

/-! ## C82: what a load that fails cannot change -/

/-- Nothing but the data of the shells `subs` (and the caches) differs. -/
structure OnlyShells (subs : List Str) (a b : LibElement K) : Prop where
  name : b.name = a.name
  mass : b.mass = a.mass
  number : b.data.atomicNumber = a.data.atomicNumber
  binding : b.data.binding = a.data.binding
  energies : b.data.muEnergy = a.data.muEnergy
  table : b.data.mu = a.data.mu
  partials : b.data.partialE = a.data.partialE ∧ b.data.partialV = a.data.partialV
  others : ∀ k, k ∉ subs → b.data.shells.find? k = a.data.shells.find? k

theorem OnlyShells.refl (subs : List Str) (a : LibElement K) : OnlyShells subs a a :=
  ⟨rfl, rfl, rfl, rfl, rfl, rfl, ⟨rfl, rfl⟩, fun _ _ => rfl⟩

theorem OnlyShells.trans {subs : List Str} {a b c : LibElement K} (h : OnlyShells subs a b) (g : OnlyShells subs b c) :
    OnlyShells subs a c :=
  ⟨g.1.trans h.1, g.2.trans h.2, g.3.trans h.3, g.4.trans h.4, g.5.trans h.5, g.6.trans h.6,
    ⟨g.7.1.trans h.7.1, g.7.2.trans h.7.2⟩, fun k hk => (g.8 k hk).trans (h.8 k hk)⟩

theorem apply_only (kind : Kind) (subs : List Str) (sub : Str) (hs : sub ∈ subs) (e : LibElement K) (d : SMap Str K) :
    OnlyShells subs e { e with data := (kind.apply sub e.data d).2 } := by
  have key : ∀ (k : Str) (s : Shell K), k ∉ subs → (e.data.shells.insert sub s).find? k = e.data.shells.find? k := by
    intro k s hk
    rw [SMap.find?_insert, if_neg]
    rintro rfl
    exact hk hs
  cases kind with
  | constants =>
    unfold Kind.apply Element.setShellConstants
    dsimp only
    split
    · exact .refl _ _
    · split <;> exact ⟨rfl, rfl, rfl, rfl, rfl, rfl, ⟨rfl, rfl⟩, fun k hk => key k _ hk⟩
  | radiative =>
    unfold Kind.apply Element.setRadiativeMap
    dsimp only
    split_ifs
    · split
      · split <;> exact ⟨rfl, rfl, rfl, rfl, rfl, rfl, ⟨rfl, rfl⟩, fun k hk => key k _ hk⟩
      all_goals exact .refl _ _
    · exact .refl _ _
  | nonradiative =>
    unfold Kind.apply Element.setNonradiativeMap Element.setNonradiative
    dsimp only
    split_ifs
    · split
      · split <;> exact ⟨rfl, rfl, rfl, rfl, rfl, rfl, ⟨rfl, rfl⟩, fun k hk => key k _ hk⟩
      all_goals exact .refl _ _
    · exact .refl _ _

theorem forall2_set {α : Type} {R : α → α → Prop} (hr : ∀ a, R a a) {l : List α} {n : Nat} {x y : α} (hx : l[n]? = some x)
    (hxy : R x y) : List.Forall₂ R l (l.set n y) := by
  induction l generalizing n with
  | nil => simp at hx
  | cons a l ih =>
    cases n with
    | zero =>
      simp only [List.getElem?_cons_zero, Option.some.injEq] at hx
      subst hx
      exact .cons hxy (List.forall₂_same.2 fun a _ => hr a)
    | succ n =>
      rw [List.getElem?_cons_succ] at hx
      exact .cons (hr a) (ih hx)

theorem forall2_trans {α : Type} {R : α → α → Prop} (ht : ∀ a b c, R a b → R b c → R a c) {l m n : List α}
    (h : List.Forall₂ R l m) (g : List.Forall₂ R m n) : List.Forall₂ R l n := by
  induction h generalizing n with
  | nil => cases g; exact .nil
  | cons h1 _ ih => cases g with | cons g1 g2 => exact .cons (ht _ _ _ h1 g1) (ih g2)

theorem rowsLoop_only (kind : Kind) (subs : List Str) (sub : Str) (hs : sub ∈ subs) (labels : List Str) :
    ∀ (rows : List (List K)) (n : Nat) (acc : SMap Str K) (els : List (LibElement K)),
    List.Forall₂ (OnlyShells subs) els (rowsLoop kind sub labels rows n acc els).2
  | [], _, _, els => List.forall₂_same.2 fun a _ => .refl _ a
  | row :: rows, n, acc, els => by
    unfold rowsLoop
    split
    · rename_i d _
      split
      · exact List.forall₂_same.2 fun a _ => .refl _ a
      · rename_i e he
        have h := forall2_set (fun a => OnlyShells.refl subs a) he (apply_only kind subs sub hs e d)
        dsimp only
        split
        · exact forall2_trans (R := OnlyShells subs) (fun _ _ _ h g => h.trans g) h (rowsLoop_only kind subs sub hs labels rows (n + 1) _ _)
        · exact h
    all_goals exact List.forall₂_same.2 fun a _ => .refl _ a

theorem scansLoop_only (kind : Kind) (subs : List Str) (strtod : Str → K) (r : Specfile.Reader) : ∀ (ss : List Str) (i : Nat)
    (els : List (LibElement K)), (∀ s ∈ ss, s ∈ subs) →
    List.Forall₂ (OnlyShells subs) els (scansLoop kind strtod r ss i els).2
  | [], _, els, _ => List.forall₂_same.2 fun a _ => .refl _ a
  | s :: ss, i, els, hs => by
    unfold scansLoop
    split
    · rename_i labels rows _
      have h := rowsLoop_only kind subs s (hs s (by simp)) labels rows 0 [] els
      dsimp only
      split
      · exact forall2_trans (R := OnlyShells subs) (fun _ _ _ h g => h.trans g) h
          (scansLoop_only kind subs strtod r ss (i + 1) _ fun s h => hs s (by simp [h]))
      · exact h
    all_goals exact List.forall₂_same.2 fun a _ => .refl _ a

/-- Used for `C82_failed_partial`. -/
theorem loadFailed (kind : Kind) (strtod : Str → K) (s : State K) (main fileName : String) (text : Option Str) :
    (∀ subs, subshellsOf main = some subs →
      List.Forall₂ (OnlyShells subs) s.elements (load kind strtod s main fileName text).2.elements) ∧
    ((load kind strtod s main fileName text).1 ≠ .ok () →
      ∀ k m, fileOf (load kind strtod s main fileName text).2 k m = fileOf s k m) := by
  constructor
  · intro subs hsubs
    unfold load
    rw [hsubs]
    dsimp only
    split_ifs
    · exact List.forall₂_same.2 fun a _ => .refl _ a
    · have h := scansLoop_only kind subs strtod (Specfile.setFileName (Specfile.File.ofText text)) subs 0 s.elements
        (fun _ h => h)
      split <;> exact h
  · intro hno k m
    unfold load at hno ⊢
    split
    · rfl
    · rename_i subs hsubs
      rw [hsubs] at hno
      dsimp only at hno ⊢
      split_ifs at hno ⊢
      · rfl
      · split
        · rename_i hok
          rw [hok] at hno
          exact absurd rfl hno
        · rfl

/-- C82, the part that holds: however a load ends, nothing but the shells of the requested main shell may differ, the file
remembered for each shell is that of the last load that returned, and the loads refused before reading any scan change
nothing (`C79_refused`). -/
theorem C82_failed_partial (kind : Kind) (strtod : Str → K) (s : State K) (main fileName : String) (text : Option Str) :
    (∀ subs, HasSubshells main subs →
      List.Forall₂ (OnlyShells subs) s.elements (load kind strtod s main fileName text).2.elements) ∧
    ((load kind strtod s main fileName text).1 ≠ .ok () →
      ∀ k m, fileOf (load kind strtod s main fileName text).2 k m = fileOf s k m) := by
  obtain ⟨h1, h2⟩ := loadFailed kind strtod s main fileName text
  exact ⟨fun subs hs => h1 subs (has_iff.1 hs), h2⟩

/-! ## C80: files that list the elements in order -/

theorem rowsLoop_count (kind : Kind) (sub : Str) (labels : List Str) : ∀ (rows : List (List K)) (n : Nat)
    (acc : SMap Str K) (els els' : List (LibElement K)), rowsLoop kind sub labels rows n acc els = (.ok (), els') →
    rows = [] ∨ n + rows.length ≤ els.length
  | [], _, _, _, _, _ => Or.inl rfl
  | row :: rows, n, acc, els, els', h => by
    right
    unfold rowsLoop at h
    split at h
    · split at h
      · cases h
      · rename_i x hx
        have hn : n < els.length := (List.getElem?_eq_some_iff.1 hx).1
        dsimp only at h
        split at h
        · rcases rowsLoop_count kind sub labels rows (n + 1) _ _ _ h with rfl | h1
          · simpa using hn
          · rw [List.length_set] at h1
            simp only [List.length_cons]
            omega
        · rename_i o hno
          simp only [Prod.mk.injEq] at h
          exact absurd h.1 hno
    · cases h
    · cases h
    · cases h

theorem scansLoop_count (kind : Kind) (strtod : Str → K) (r : Specfile.Reader) : ∀ (subs : List Str) (i : Nat)
    (els els' : List (LibElement K)), scansLoop kind strtod r subs i els = (.ok (), els') →
    ∀ j rows, j < subs.length → Specfile.getScanData strtod r ((i + j : Nat) : Int) = .ok rows →
      rows.length ≤ els.length
  | [], _, _, _, _, j, _, hj, _ => by simp at hj
  | sub :: subs, i, els, els', h, j, rows', hj, hr => by
    unfold scansLoop at h
    split at h
    · rename_i labels rows hscan
      obtain ⟨-, h2, -, -⟩ := readScan_ok hscan
      dsimp only at h
      split at h
      · rename_i hok
        cases j with
        | zero =>
          rw [Nat.add_zero, h2] at hr
          obtain rfl : rows = rows' := by simpa using hr
          rcases rowsLoop_count kind sub labels rows 0 [] els _ (Prod.ext hok rfl) with rfl | h1
          · simp
          · omega
        | succ j =>
          have := scansLoop_count kind strtod r subs (i + 1) _ _ h j rows' (by simpa using hj)
            (by rwa [show i + 1 + j = i + (j + 1) by omega])
          rwa [rowsLoop_length] at this
      · rename_i o hno
        simp only [Prod.mk.injEq] at h
        exact absurd h.1 hno
    · cases h
    · cases h
    · cases h

/-- The value of the column `Z` of a row. -/
def zOf (labels : List Str) (row : List K) : Option K := (labels.zip row).lookup "Z".toList

/-- Used for `C80_in_order_partial`. -/
theorem loadInOrder (strtod : Str → K) (s s' : State K) (main fileName : String) (text : Option Str)
    (h : load .constants strtod s main fileName text = (.ok (), s')) (subs : List Str) (hsubs : subshellsOf main = some subs)
    (hnd : (s.elements.map (fun e => e.data.atomicNumber)).Nodup)
    (i m : Nat) (sub : Str) (labels : List Str) (rows : List (List K)) (row : List K) (hi : subs[i]? = some sub)
    (hlab : Specfile.getScanLabels (Specfile.setFileName (Specfile.File.ofText text)) (i : Int) = .ok labels)
    (hrows : Specfile.getScanData strtod (Specfile.setFileName (Specfile.File.ofText text)) (i : Int) = .ok rows)
    (hord : ∀ (n : Nat) row' e', rows[n]? = some row' → s.elements[n]? = some e' →
      zOf labels row' = some (e'.data.atomicNumber : K))
    (hrow : rows[m]? = some row) (n : Nat) (e : LibElement K) (he : s.elements[n]? = some e)
    (hz : zOf labels row = some (e.data.atomicNumber : K)) :
    ∃ e' sh sh', s'.elements[n]? = some { e with data := e' } ∧ e.data.shells.find? sub = some sh ∧
      e'.shells.find? sub = some sh' ∧
      ∀ k, sh'.constants.find? k = match (columns .constants labels row).find? k with
        | some v => some v
        | none => sh.constants.find? k := by
  have hlen : rows.length ≤ s.elements.length := by
    unfold load at h
    rw [hsubs] at h
    dsimp only at h
    split_ifs at h with hn
    · cases h
    split at h
    · rename_i hok
      exact scansLoop_count .constants strtod _ subs 0 _ _ (Prod.ext hok rfl) i rows
        (List.getElem?_eq_some_iff.1 hi).1 (by simpa using hrows)
    · rename_i o hno
      simp only [Prod.mk.injEq] at h
      exact absurd h.1 hno
  have hm : m < s.elements.length := lt_of_lt_of_le (List.getElem?_eq_some_iff.1 hrow).1 hlen
  have hz' := hord m row _ hrow (List.getElem?_eq_getElem hm)
  rw [hz] at hz'
  have hzz : e.data.atomicNumber = s.elements[m].data.atomicNumber := by
    have := Option.some.inj hz'
    exact_mod_cast this
  obtain ⟨hn, hen⟩ := List.getElem?_eq_some_iff.1 he
  have hmn : n = m := by
    refine (List.Nodup.getElem_inj_iff hnd (hi := by simpa using hn) (hj := by simpa using hm)).1 ?_
    simp only [List.getElem_map]
    rw [hen]
    exact hzz
  subst hmn
  exact loadYields strtod s s' main fileName text h subs hsubs i n sub labels rows row hi hlab hrows hrow e he

/-- C80, the part that holds: if the rows of the file follow the order of the elements, the yields of a row are given to the
element whose atomic number is in the row. -/
theorem C80_in_order_partial (strtod : Str → K) (s s' : State K) (main fileName : String) (text : Option Str)
    (h : load .constants strtod s main fileName text = (.ok (), s')) (subs : List Str) (hsubs : HasSubshells main subs)
    (hnd : (s.elements.map (fun e => e.data.atomicNumber)).Nodup)
    (i m : Nat) (sub : Str) (labels : List Str) (rows : List (List K)) (row : List K) (hi : subs[i]? = some sub)
    (hlab : Specfile.getScanLabels (Specfile.setFileName (Specfile.File.ofText text)) (i : Int) = .ok labels)
    (hrows : Specfile.getScanData strtod (Specfile.setFileName (Specfile.File.ofText text)) (i : Int) = .ok rows)
    (hord : ∀ (n : Nat) row' e', rows[n]? = some row' → s.elements[n]? = some e' →
      zOf labels row' = some (e'.data.atomicNumber : K))
    (hrow : rows[m]? = some row) (n : Nat) (e : LibElement K) (he : s.elements[n]? = some e)
    (hz : zOf labels row = some (e.data.atomicNumber : K)) :
    ∃ e' sh sh', s'.elements[n]? = some { e with data := e' } ∧ e.data.shells.find? sub = some sh ∧
      e'.shells.find? sub = some sh' ∧
      ∀ k, sh'.constants.find? k = match (columns .constants labels row).find? k with
        | some v => some v
        | none => sh.constants.find? k := by
  exact loadInOrder strtod s s' main fileName text h subs (has_iff.1 hsubs) hnd i m sub labels rows row hi hlab hrows hord hrow n
    e he hz

/-! ## Examples and violations -/

/-- Conversion of the numbers of the examples. -/
def exStrtod (s : Str) : ℚ :=
  if s = "0.5".toList then 1 / 2 else if s = "0.25".toList then 1 / 4 else if s = "1".toList then 1
  else if s = "2".toList then 2 else if s = "3".toList then 3 else 0

/-- An element with K and L shells and no data. -/
def exElement (z : Int) : Element ℚ :=
  { atomicNumber := z, binding := [], muEnergy := [], mu := none, partialE := [], partialV := [], cacheOn := false,
    muCache := [], excCache := [], shells := [], cascadeOn := false, cascadeCache := [] : Element ℚ }.setBindingEnergies
    [("K".toList, 3), ("L1".toList, 1), ("L2".toList, 1), ("L3".toList, 1)] |>.2

/-- Two elements. -/
def exState : State ℚ := { elements := [⟨"H", 1, exElement 1⟩, ⟨"He", 4, exElement 2⟩], files := fun _ => [] }

/-- The yield of a shell of the `n`-th element. -/
def yieldOf (s : State ℚ) (n : Nat) (sub key : String) : Option ℚ := do
  let e ← s.elements[n]?
  let sh ← e.data.shells.find? sub.toList
  sh.constants.find? key.toList

/-- The hypotheses of `C79_load`, `C79_yields` and `C81_safe_partial` are met by a file with a row for each element. -/
example : ∃ s', load .constants exStrtod exState "K" "k.dat" (some "#S 1 K\n#L Z  omegaK\n1  0.5\n2  0.25\n".toList) =
    (.ok (), s') ∧ yieldOf s' 0 "K" "omega" = some (1 / 2) ∧ yieldOf s' 1 "K" "omega" = some (1 / 4) := by
  refine ⟨_, Prod.ext ?_ rfl, ?_, ?_⟩ <;> decide +kernel

/-- C80 is false: the atomic number written in the file is ignored. A file with data for the second element only changes
the first one. -/
theorem C80_atomic_number_violated :
    (load .constants exStrtod exState "K" "k.dat" (some "#S 1 K\n#L Z  omegaK\n2  0.5\n".toList)).1 = .ok () ∧
    yieldOf exState 0 "K" "omega" = some 0 ∧ yieldOf exState 1 "K" "omega" = some 0 ∧
    yieldOf (load .constants exStrtod exState "K" "k.dat" (some "#S 1 K\n#L Z  omegaK\n2  0.5\n".toList)).2 0 "K" "omega" =
      some (1 / 2) ∧
    yieldOf (load .constants exStrtod exState "K" "k.dat" (some "#S 1 K\n#L Z  omegaK\n2  0.5\n".toList)).2 1 "K" "omega" =
      some 0 := by
  refine ⟨?_, ?_, ?_, ?_, ?_⟩ <;> decide +kernel

/-- C81 is false: a file with three scans of one row each is read out of bounds, as is one with more rows than elements. -/
theorem C81_unsafe_violated :
    (load .constants exStrtod exState "L" "l.dat"
      (some "#S 1 L1\n#L Z  omegaL1\n1  0.5\n\n#S 2 L2\n#L Z  omegaL2\n1  0.5\n\n#S 3 L3\n#L Z  omegaL3\n1  0.5\n".toList)).1 =
      .ub .outOfBounds ∧
    (load .constants exStrtod exState "K" "k.dat" (some "#S 1 K\n#L Z  omegaK\n1  0.5\n2  0.5\n3  0.5\n".toList)).1 =
      .ub .outOfBounds := by
  constructor <;> decide +kernel

/-- C82 is false: a file refused because of its second scan has already changed the elements. -/
theorem C82_not_atomic_violated :
    (load .constants exStrtod exState "L" "l.dat"
      (some "#S 1 L1\n#L Z  omegaL1\n1  0.5\n2  0.5\n\n#S 2 L2\n#L Z  omegaL2  f23\n1  0.5\n2  0.5\n\n#S 3 L3\n#L Z  omegaL3\n1  0.5\n2  0.5\n3  0.5\n".toList)).1 =
      .throw .ioFailure ∧
    yieldOf exState 0 "L1" "omega" = some 0 ∧
    yieldOf (load .constants exStrtod exState "L" "l.dat"
      (some "#S 1 L1\n#L Z  omegaL1\n1  0.5\n2  0.5\n\n#S 2 L2\n#L Z  omegaL2  f23\n1  0.5\n2  0.5\n\n#S 3 L3\n#L Z  omegaL3\n1  0.5\n2  0.5\n3  0.5\n".toList)).2 0 "L1" "omega" =
      some (1 / 2) := by
  refine ⟨?_, ?_, ?_⟩ <;> decide +kernel

end Loader
end Fisx
