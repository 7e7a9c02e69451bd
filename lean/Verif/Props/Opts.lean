/-
C40: the options of the iterative solvers.
-/
import Verif.Proofs.Opts
import Mathlib.Algebra.Order.Ring.Rat

namespace Verif
namespace Props
open Model Spec Proofs

/-- a sequence of calls, as the library runs it -/
def runReg {Q : Type} [LinearOrder Q] (stod : Str → Option (Option Q)) :
    List OptCall → Registry Q → Option (List Status × Registry Q)
  | [], R => some ([], R)
  | .set o v :: cs, R => do
    let r ← parseOption stod R o v
    let q ← runReg stod cs r.2
    some (r.1 :: q.1, q.2)
  | .lock :: cs, R => runReg stod cs R.lock
  | .unlock :: cs, R => runReg stod cs R.unlock

/-- what the solvers read -/
def readOpt {Q : Type} (R : Registry Q) (name : Str) : Option (OptVal Q) :=
  match R.getInt name with
  | some i => some (.int i)
  | none =>
    match R.getReal name with
    | some q => some (.real q)
    | none => (R.getStr name).map fun s => .choice (String.ofList s)

/-- the reader of integers -/
theorem C40_stoi : ReadsInts stoi := by
  intro s v
  constructor
  · intro h
    have ht := stoi_some h
    rw [stoi_of_text ht] at h
    rcases ite_or h with ⟨-, h⟩ | ⟨hb, -⟩
    · cases h
    · exact ⟨ht, by omega, by omega⟩
  · rintro ⟨ht, h1, h2⟩
    rw [stoi_of_text ht, if_neg (by omega)]

theorem words_iff (s t : Str) : words s = words t ↔ prepStr s = prepStr t := (prepStr_inj s t).symm

section
variable {Q : Type} [LinearOrder Q]

def asInt : OptVal Q → Int
  | .int i => i
  | _ => 0
def asReal (zero : Q) : OptVal Q → Q
  | .real q => q
  | _ => zero
def asStr : OptVal Q → Str
  | .choice l => l.toList
  | _ => []

/-- the registry that holds a state -/
def regOf (zero one : Q) (S : OptState Q) : Registry Q :=
  ⟨S.locked,
   ["cg iteration limit", "gmres iteration limit", "gmres restart iterations"].map fun n =>
     ⟨n.toList, asInt (S.vals n), 1, .greaterEqual, 1, .pInf⟩,
   ["cg rel tolerance", "cg abs tolerance", "gmres rel tolerance", "gmres abs tolerance"].map fun n =>
     ⟨n.toList, asReal zero (S.vals n), zero, .greaterEqual, one, .pInf⟩,
   [],
   [⟨"iterative method".toList, asStr (S.vals "iterative method"),
      [("cg".toList, 1), ("pcg".toList, 1), ("gmres".toList, 2), ("gm res".toList, 2)]⟩,
    ⟨"cg preconditioner".toList, asStr (S.vals "cg preconditioner"),
      [("none".toList, 0), ("user".toList, 1), ("gs".toList, 3), ("symgs".toList, 3), ("sgs".toList, 3)]⟩,
    ⟨"gmres preconditioner".toList, asStr (S.vals "gmres preconditioner"),
      [("none".toList, 0), ("user".toList, 1), ("ilu0".toList, 2)]⟩]⟩

/-- every option has a value of its kind -/
def AllFit (zero : Q) (S : OptState Q) : Prop := ∀ e ∈ table, Fits zero e.2 (S.vals e.1)

theorem register_regOf {zero one rel abs : Q} (h1 : zero ≤ one) (h2 : zero ≤ rel) (h3 : zero ≤ abs) :
    registerOptions zero one rel abs = some (regOf zero one ⟨defaults rel abs, false⟩) := by
  have e1 : mkStrOpt "iterative method".toList
      [("CG".toList, 1), ("PCG".toList, 1), ("GMRES".toList, 2), ("GM RES".toList, 2)] "CG".toList =
      some ⟨"iterative method".toList, "cg".toList,
        [("cg".toList, 1), ("pcg".toList, 1), ("gmres".toList, 2), ("gm res".toList, 2)]⟩ := by decide +kernel
  have e2 : mkStrOpt "cg preconditioner".toList
      [("None".toList, 0), ("User".toList, 1), ("GS".toList, 3), ("SymGS".toList, 3), ("SGS".toList, 3)]
      "None".toList = some ⟨"cg preconditioner".toList, "none".toList,
        [("none".toList, 0), ("user".toList, 1), ("gs".toList, 3), ("symgs".toList, 3), ("sgs".toList, 3)]⟩ := by
    decide +kernel
  have e3 : mkStrOpt "gmres preconditioner".toList
      [("None".toList, 0), ("User".toList, 1), ("ILU0".toList, 2)] "None".toList =
      some ⟨"gmres preconditioner".toList, "none".toList,
        [("none".toList, 0), ("user".toList, 1), ("ilu0".toList, 2)]⟩ := by decide +kernel
  have hi : ∀ (n : Str) (d : Int), prepStr n = n → n ≠ [] → 1 ≤ d →
      mkNumOpt n (1 : Int) .greaterEqual 1 .pInf d = some ⟨n, d, 1, .greaterEqual, 1, .pInf⟩ := by
    intro n d hn hne hd
    unfold mkNumOpt
    simp [checkRange, hn, hne, hd]
  have hr : ∀ (n : Str) (d : Q), prepStr n = n → n ≠ [] → zero ≤ d →
      mkNumOpt n zero .greaterEqual one .pInf d = some ⟨n, d, zero, .greaterEqual, one, .pInf⟩ := by
    intro n d hn hne hd
    unfold mkNumOpt
    simp [checkRange, hn, hne, hd, not_lt.2 hd, not_lt.2 h1]
  unfold registerOptions
  rw [e1, hi "cg iteration limit".toList 500 (by decide +kernel) (by decide) (by decide),
    hr "cg rel tolerance".toList rel (by decide +kernel) (by decide) h2,
    hr "cg abs tolerance".toList abs (by decide +kernel) (by decide) h3, e2,
    hi "gmres iteration limit".toList 150 (by decide +kernel) (by decide) (by decide),
    hr "gmres rel tolerance".toList rel (by decide +kernel) (by decide) h2,
    hr "gmres abs tolerance".toList abs (by decide +kernel) (by decide) h3, e3,
    hi "gmres restart iterations".toList 20 (by decide +kernel) (by decide) (by decide)]
  rfl

/-- find_if on a list made from names -/
theorem find_map {O N : Type} (nm : N → Str) (g : N → O) (nameOf : O → Str) (hg : ∀ n, nameOf (g n) = nm n) (p : Str)
    (ns : List N) : (ns.map g).find? (fun o => decide (nameOf o = p)) =
      (ns.find? fun n => decide (nm n = p)).map g := by
  rw [List.find?_map]
  congr 1
  congr 1
  funext n
  simp [hg]

theorem setFirst_map {O N : Type} [DecidableEq N] (nm : N → Str) (g : N → O) (nameOf : O → Str)
    (hg : ∀ n, nameOf (g n) = nm n) (p : Str) (f : O → Except Nat O) (locked : Bool) (ns : List N) (hnd : ns.Nodup) :
    setFirst nameOf p f locked (ns.map g) =
      match ns.find? fun n => decide (nm n = p) with
      | none => (3, ns.map g)
      | some n => if locked then (4, ns.map g) else
        match f (g n) with
        | .error e => (e, ns.map g)
        | .ok o' => (0, ns.map fun n' => if n' = n then o' else g n') := by
  induction ns with
  | nil => rfl
  | cons n ns ih =>
    have ih := ih (List.nodup_cons.1 hnd).2
    have hn := (List.nodup_cons.1 hnd).1
    rw [List.map_cons, setFirst, hg]
    by_cases h : nm n = p
    · rw [if_pos h, List.find?_cons_of_pos (by simp [h])]
      dsimp only
      cases locked with
      | true => rfl
      | false =>
        cases f (g n) with
        | error e => rfl
        | ok o' =>
          simp only [Bool.false_eq_true, if_false, List.map_cons, if_true, Prod.mk.injEq, List.cons.injEq, true_and]
          refine List.map_congr_left fun m hm => ?_
          rw [if_neg (by rintro rfl; exact hn hm)]
    · rw [if_neg h, List.find?_cons_of_neg (by simp [h]), ih]
      cases hf : ns.find? fun n => decide (nm n = p) with
      | none => rfl
      | some k =>
        have hk : k ∈ ns := List.mem_of_find?_eq_some hf
        have hne : n ≠ k := by rintro rfl; exact hn hk
        dsimp only
        cases locked with
        | true => rfl
        | false =>
          cases f (g k) with
          | error e => rfl
          | ok o' => simp [hne]

def intNames : List String := ["cg iteration limit", "gmres iteration limit", "gmres restart iterations"]
def realNames : List String :=
  ["cg rel tolerance", "cg abs tolerance", "gmres rel tolerance", "gmres abs tolerance"]
def strTable : List (String × List (String × Int)) :=
  [("iterative method", [("cg", 1), ("pcg", 1), ("gmres", 2), ("gm res", 2)]),
   ("cg preconditioner", [("none", 0), ("user", 1), ("gs", 3), ("symgs", 3), ("sgs", 3)]),
   ("gmres preconditioner", [("none", 0), ("user", 1), ("ilu0", 2)])]

theorem table_eq : table = intNames.map (fun n => (n, Kind.int)) ++ (realNames.map (fun n => (n, Kind.real)) ++
    strTable.map fun e => (e.1, Kind.choice e.2)) := rfl

def intOf (S : OptState Q) (n : String) : NumOpt Int := ⟨n.toList, asInt (S.vals n), 1, .greaterEqual, 1, .pInf⟩
def realOf (zero one : Q) (S : OptState Q) (n : String) : NumOpt Q :=
  ⟨n.toList, asReal zero (S.vals n), zero, .greaterEqual, one, .pInf⟩
def strOf (S : OptState Q) (e : String × List (String × Int)) : StrOpt :=
  ⟨e.1.toList, asStr (S.vals e.1), e.2.map fun l => (l.1.toList, l.2)⟩

theorem regOf_eq (zero one : Q) (S : OptState Q) : regOf zero one S =
    ⟨S.locked, intNames.map (intOf S), realNames.map (realOf zero one S), [], strTable.map (strOf S)⟩ := rfl

theorem prep_names : ∀ e ∈ table.map (·.1), prepStr e.toList = e.toList := by decide +kernel

theorem find_congr {N : Type} (p q : N → Bool) (l : List N) (h : ∀ x ∈ l, p x = q x) : l.find? p = l.find? q := by
  induction l with
  | nil => rfl
  | cons x l ih =>
    rw [List.find?_cons, List.find?_cons, h x (by simp), ih (fun x hx => h x (by simp [hx]))]

theorem optionOf_eq (name : Str) : optionOf name = table.find? fun e => decide (e.1.toList = prepStr name) := by
  unfold optionOf
  apply find_congr
  intro e he
  rw [decide_eq_decide, words_iff, prep_names e.1 (List.mem_map.2 ⟨e, he, rfl⟩)]

theorem optionOf_cases (name : Str) : optionOf name =
    ((intNames.find? fun n => decide (n.toList = prepStr name)).map fun n => (n, Kind.int)).or
    (((realNames.find? fun n => decide (n.toList = prepStr name)).map fun n => (n, Kind.real)).or
    ((strTable.find? fun e => decide (e.1.toList = prepStr name)).map fun e => (e.1, Kind.choice e.2))) := by
  rw [optionOf_eq, table_eq, List.find?_append, List.find?_append]
  congr 1
  · exact find_map (fun n : String => n.toList) (fun n => (n, Kind.int)) (fun e => e.1.toList) (fun n => rfl) _ _
  · congr 1
    · exact find_map (fun n : String => n.toList) (fun n => (n, Kind.real)) (fun e => e.1.toList) (fun n => rfl) _ _
    · exact find_map (fun e : String × List (String × Int) => e.1.toList) (fun e => (e.1, Kind.choice e.2))
        (fun e => e.1.toList) (fun n => rfl) _ _

/-- one value changed -/
def upd (S : OptState Q) (n : String) (x : OptVal Q) : OptState Q :=
  { S with vals := fun n' => if n' = n then x else S.vals n' }

theorem getInt_regOf (zero one : Q) (S : OptState Q) (name : Str) : (regOf zero one S).getInt name =
    (intNames.find? fun n => decide (n.toList = prepStr name)).map fun n => asInt (S.vals n) := by
  show (List.find? (fun o => decide (NumOpt.name o = prepStr name)) (intNames.map (intOf S))).map (·.value) = _
  rw [find_map (fun n : String => n.toList) (intOf S) NumOpt.name (fun n => rfl), Option.map_map]
  rfl

theorem getReal_regOf (zero one : Q) (S : OptState Q) (name : Str) : (regOf zero one S).getReal name =
    (realNames.find? fun n => decide (n.toList = prepStr name)).map fun n => asReal zero (S.vals n) := by
  show (List.find? (fun o => decide (NumOpt.name o = prepStr name)) (realNames.map (realOf zero one S))).map (·.value) = _
  rw [find_map (fun n : String => n.toList) (realOf zero one S) NumOpt.name (fun n => rfl), Option.map_map]
  rfl

theorem getStr_regOf (zero one : Q) (S : OptState Q) (name : Str) : (regOf zero one S).getStr name =
    (strTable.find? fun e => decide (e.1.toList = prepStr name)).map fun e => asStr (S.vals e.1) := by
  show (List.find? (fun o => decide (StrOpt.name o = prepStr name)) (strTable.map (strOf S))).map (·.value) = _
  rw [find_map (fun e : String × List (String × Int) => e.1.toList) (strOf S) StrOpt.name (fun n => rfl),
    Option.map_map]
  rfl

theorem names_disjoint : (∀ x ∈ intNames, x ∉ realNames ∧ x ∉ strTable.map (·.1)) ∧
    (∀ x ∈ realNames, x ∉ intNames ∧ x ∉ strTable.map (·.1)) ∧
    (∀ x ∈ strTable.map (·.1), x ∉ intNames ∧ x ∉ realNames) := by decide

theorem ints_upd (S : OptState Q) {n : String} (h : n ∉ intNames) (x : OptVal Q) :
    intNames.map (intOf (upd S n x)) = intNames.map (intOf S) := by
  refine List.map_congr_left fun m hm => ?_
  have : m ≠ n := by rintro rfl; exact h hm
  simp [intOf, upd, this]

theorem reals_upd (zero one : Q) (S : OptState Q) {n : String} (h : n ∉ realNames) (x : OptVal Q) :
    realNames.map (realOf zero one (upd S n x)) = realNames.map (realOf zero one S) := by
  refine List.map_congr_left fun m hm => ?_
  have : m ≠ n := by rintro rfl; exact h hm
  simp [realOf, upd, this]

theorem strs_upd (S : OptState Q) {n : String} (h : n ∉ strTable.map (·.1)) (x : OptVal Q) :
    strTable.map (strOf (upd S n x)) = strTable.map (strOf S) := by
  refine List.map_congr_left fun m hm => ?_
  have : m.1 ≠ n := by rintro rfl; exact h (List.mem_map.2 ⟨m, hm, rfl⟩)
  simp [strOf, upd, this]

theorem setInt_regOf (zero one : Q) (S : OptState Q) (name : Str) (v : Int) {n : String}
    (hf : intNames.find? (fun n => decide (n.toList = prepStr name)) = some n) :
    (regOf zero one S).setIntOpt name v =
      if S.locked then (4, regOf zero one S)
      else if 1 ≤ v then (0, regOf zero one (upd S n (.int v))) else (1, regOf zero one S) := by
  have hn := List.mem_of_find?_eq_some hf
  have hd := names_disjoint.1 n hn
  simp only [regOf_eq, Registry.setIntOpt, ints_upd, reals_upd zero one S hd.1, strs_upd S hd.2,
    setFirst_map (fun n : String => n.toList) (intOf S) NumOpt.name (fun n => rfl) _ _ _ intNames (by decide), hf]
  cases hl : S.locked with
  | true => rfl
  | false =>
    by_cases hv : 1 ≤ v
    · have : (intOf S n).setInt v = .ok { intOf S n with value := v } := by
        simp [NumOpt.setInt, checkRange, intOf, hv]
      rw [this]
      simp only [Bool.false_eq_true, if_false, hv, if_true, upd, hl, Prod.mk.injEq, Registry.mk.injEq, true_and, and_true]
      refine List.map_congr_left fun m hm => ?_
      by_cases hmn : m = n
      · subst hmn; simp [intOf, asInt]
      · simp [intOf, hmn]
    · have : (intOf S n).setInt v = .error 1 := by
        simp [NumOpt.setInt, checkRange, intOf]
        omega
      rw [this]
      simp [hv, hl]

theorem setReal_regOf (zero one : Q) (S : OptState Q) (name : Str) (v : Option Q) {n : String}
    (hf : realNames.find? (fun n => decide (n.toList = prepStr name)) = some n) :
    (regOf zero one S).setRealOpt name v =
      if S.locked then (4, regOf zero one S)
      else match v with
        | none => (2, regOf zero one S)
        | some v => if zero ≤ v then (0, regOf zero one (upd S n (.real v))) else (1, regOf zero one S) := by
  have hn := List.mem_of_find?_eq_some hf
  have hd := names_disjoint.2.1 n hn
  cases v with
  | none =>
    simp only [regOf_eq, Registry.setRealOpt,
      setFirst_map (fun n : String => n.toList) (realOf zero one S) NumOpt.name (fun n => rfl) _ _ _ realNames
        (by decide), hf, NumOpt.setReal]
    cases S.locked <;> rfl
  | some v =>
    simp only [regOf_eq, Registry.setRealOpt, ints_upd S hd.1, strs_upd S hd.2,
      setFirst_map (fun n : String => n.toList) (realOf zero one S) NumOpt.name (fun n => rfl) _ _ _ realNames
        (by decide), hf]
    cases hl : S.locked with
    | true => rfl
    | false =>
      by_cases hv : zero ≤ v
      · have : (realOf zero one S n).setReal (some v) = .ok { realOf zero one S n with value := v } := by
          simp [NumOpt.setReal, checkRange, realOf, not_lt.2 hv]
        rw [this]
        simp only [Bool.false_eq_true, if_false, hv, if_true, upd, hl, Prod.mk.injEq, Registry.mk.injEq, true_and,
          and_true]
        refine List.map_congr_left fun m hm => ?_
        by_cases hmn : m = n
        · subst hmn; simp [realOf, asReal]
        · simp [realOf, hmn]
      · have : (realOf zero one S n).setReal (some v) = .error 1 := by
          simp [NumOpt.setReal, checkRange, realOf, not_le.1 hv]
        rw [this]
        simp [hv, hl]

theorem prep_labels : ∀ e ∈ strTable, ∀ l ∈ e.2, prepStr l.1.toList = l.1.toList := by decide +kernel

theorem lookup_labels (labels : List (String × Int)) (h : ∀ l ∈ labels, prepStr l.1.toList = l.1.toList) (v : Str) :
    (labels.map fun l => (l.1.toList, l.2)).lookup (prepStr v) =
      (labels.find? fun l => decide (words l.1.toList = words v)).map (·.2) := by
  induction labels with
  | nil => rfl
  | cons l ls ih =>
    have hl := h l (by simp)
    have ih := ih (fun l hl => h l (by simp [hl]))
    rw [List.map_cons, List.lookup_cons]
    by_cases hv : words l.1.toList = words v
    · have e : prepStr v = l.1.toList := by rw [← hl]; exact ((words_iff _ _).1 hv).symm
      rw [List.find?_cons_of_pos (by simp [hv]), e]
      simp
    · have e : prepStr v ≠ l.1.toList := by
        rw [← hl]; intro e; exact hv ((words_iff _ _).2 e.symm)
      rw [List.find?_cons_of_neg (by simp [hv]), ← ih]
      rw [beq_eq_false_iff_ne.2 e]

theorem setStr_regOf (zero one : Q) (S : OptState Q) (name : Str) (v : Str) {e : String × List (String × Int)}
    (hf : strTable.find? (fun n => decide (n.1.toList = prepStr name)) = some e) :
    (regOf zero one S).setStrOpt name v =
      if S.locked then (4, regOf zero one S)
      else match e.2.find? fun l => decide (words l.1.toList = words v) with
        | none => (2, regOf zero one S)
        | some l => (0, regOf zero one (upd S e.1 (.choice l.1))) := by
  have hn := List.mem_of_find?_eq_some hf
  have hd := names_disjoint.2.2 e.1 (List.mem_map.2 ⟨e, hn, rfl⟩)
  have hlook := lookup_labels e.2 (prep_labels e hn) v
  cases h : e.2.find? fun l => decide (words l.1.toList = words v) with
  | none =>
    rw [h] at hlook
    simp only [regOf_eq, Registry.setStrOpt,
      setFirst_map (fun e : String × List (String × Int) => e.1.toList) (strOf S) StrOpt.name (fun n => rfl) _ _ _
        strTable (by decide), hf, StrOpt.set]
    have : ((strOf S e).labels.lookup (prepStr v)).isNone = true := by
      show ((e.2.map fun l => (l.1.toList, l.2)).lookup (prepStr v)).isNone = true
      rw [hlook]; rfl
    rw [if_pos this]
    cases S.locked <;> rfl
  | some l =>
    rw [h] at hlook
    simp only [regOf_eq, Registry.setStrOpt, ints_upd S hd.1, reals_upd zero one S hd.2,
      setFirst_map (fun e : String × List (String × Int) => e.1.toList) (strOf S) StrOpt.name (fun n => rfl) _ _ _
        strTable (by decide), hf, StrOpt.set]
    have : ¬ ((strOf S e).labels.lookup (prepStr v)).isNone = true := by
      show ¬ ((e.2.map fun l => (l.1.toList, l.2)).lookup (prepStr v)).isNone = true
      rw [hlook]; simp
    rw [if_neg this]
    have hpv : prepStr v = l.1.toList := by
      rw [← prep_labels e hn l (List.mem_of_find?_eq_some h)]
      have h' : words l.1.toList = words v := by simpa using List.find?_some h
      exact ((words_iff _ _).1 h').symm
    cases hl : S.locked with
    | true => rfl
    | false =>
      simp only [Bool.false_eq_true, if_false, upd, hl, Prod.mk.injEq, Registry.mk.injEq, true_and]
      refine List.map_congr_left fun m hm => ?_
      by_cases hmn : m = e
      · subst hmn; simp [strOf, asStr, hpv]
      · have hinj : ∀ a ∈ strTable, ∀ b ∈ strTable, a.1 = b.1 → a = b := by decide
        have : m.1 ≠ e.1 := fun he => hmn (hinj m hm e hn he)
        simp [strOf, hmn, this]

theorem parse_regOf {zero one : Q} (stod : Str → Option (Option Q)) (S : OptState Q) (o v : Option Str) :
    parseOption stod (regOf zero one S) o v =
      (setEffect zero stoi stod S o v).map fun r => (r.1, regOf zero one r.2) := by
  cases o with
  | none => rfl
  | some name =>
    cases v with
    | none => rfl
    | some v =>
      have hb : ((regOf zero one S).getBool name).isSome = false := rfl
      simp only [setEffect, optionOf_cases, parseOption, getInt_regOf, getReal_regOf, getStr_regOf, Option.isSome_map]
      cases h1 : intNames.find? fun n => decide (n.toList = prepStr name) with
      | some n =>
        simp only [Option.isSome_some, if_true, Option.map_some, Option.some_or, valueOf, Option.map_map]
        congr 1
        funext i
        simp only [setInt_regOf zero one S name i h1, Function.comp]
        by_cases hv : 1 ≤ i <;> cases hl : S.locked <;> simp [hv, flagStatus, upd, hl]
      | none =>
        cases h2 : realNames.find? fun n => decide (n.toList = prepStr name) with
        | some n =>
          simp only [Option.isSome_some, Option.isSome_none, if_true, Option.map_some, Option.map_none, Option.some_or,
            Option.none_or, valueOf, Option.map_map, Bool.false_eq_true, if_false]
          congr 1
          funext q
          simp only [setReal_regOf zero one S name q h2, Function.comp]
          cases q with
          | none => cases hl : S.locked <;> simp [flagStatus]
          | some q =>
            by_cases hv : zero ≤ q <;> cases hl : S.locked <;> simp [hv, flagStatus, upd, hl]
        | none =>
          cases h3 : strTable.find? fun e => decide (e.1.toList = prepStr name) with
          | some e =>
            simp only [Option.isSome_some, Option.isSome_none, if_true, Option.map_some, Option.map_none,
              Option.none_or, valueOf, Bool.false_eq_true, if_false, Option.some.injEq]
            simp only [setStr_regOf zero one S name v h3]
            cases he : e.2.find? fun l => decide (words l.1.toList = words v) with
            | none => cases hl : S.locked <;> simp [flagStatus]
            | some l => cases hl : S.locked <;> simp [flagStatus, upd, hl]
          | none => simp [hb]

theorem run_regOf {zero one : Q} (stod : Str → Option (Option Q)) (cs : List OptCall) (S : OptState Q) :
    runReg stod cs (regOf zero one S) =
      (runOpts zero stoi stod cs S).map fun r => (r.1, regOf zero one r.2) := by
  induction cs generalizing S with
  | nil => rfl
  | cons c cs ih =>
    cases c with
    | lock => exact ih { S with locked := true }
    | unlock => exact ih { S with locked := false }
    | set o v =>
      rw [runReg, runOpts, parse_regOf]
      cases setEffect zero stoi stod S o v with
      | none => rfl
      | some r =>
        simp only [Option.map_some, Option.bind_eq_bind, Option.bind_some, ih]
        cases runOpts zero stoi stod cs r.2 with
        | none => rfl
        | some q => rfl

theorem table_inj {a b : String × Kind} (ha : a ∈ table) (hb : b ∈ table) (h : a.1 = b.1) : a = b := by
  have hall : ∀ a ∈ table, ∀ b ∈ table, a.1 = b.1 → a = b := by decide
  exact hall a ha b hb h

/-- values stay in range -/
theorem fits_upd {zero : Q} {S : OptState Q} (h : AllFit zero S) {n : String} {k : Kind} (he : (n, k) ∈ table)
    {x : OptVal Q} (hx : Fits zero k x) : AllFit zero (upd S n x) := by
  have hinj : ∀ k', (n, k') ∈ table → k' = k := by
    intro k' hk'
    have := table_inj hk' he rfl
    cases this; rfl
  intro e he'
  unfold upd
  dsimp only
  by_cases hn : e.1 = n
  · obtain ⟨n', k'⟩ := e
    subst hn
    rw [if_pos rfl, hinj k' he']
    exact hx
  · rw [if_neg hn]
    exact h e he'

end

/-- what is true of the values after any calls -/
theorem fits_run {Q : Type} [LinearOrder Q] {zero : Q} {readInt : Str → Option Int} (hri : ReadsInts readInt)
    (stod : Str → Option (Option Q)) (cs : List OptCall) (S : OptState Q) (h : AllFit zero S)
    {r : List Status × OptState Q} (hr : runOpts zero readInt stod cs S = some r) : AllFit zero r.2 := by
  induction cs generalizing S r with
  | nil => cases hr; exact h
  | cons c cs ih =>
    cases c with
    | lock => exact ih { S with locked := true } h hr
    | unlock => exact ih { S with locked := false } h hr
    | set o v =>
      rw [runOpts] at hr
      obtain ⟨a, ha, hr⟩ := Option.bind_eq_some_iff.1 hr
      obtain ⟨b, hb, hr⟩ := Option.bind_eq_some_iff.1 hr
      cases hr
      refine ih a.2 (r := b) ?_ hb
      unfold setEffect at ha
      cases o with
      | none => cases ha; exact h
      | some name =>
        cases v with
        | none => cases ha; exact h
        | some v =>
          dsimp only at ha
          cases ho : optionOf name with
          | none => rw [ho] at ha; cases ha; exact h
          | some e =>
            obtain ⟨n, k⟩ := e
            rw [ho] at ha
            dsimp only at ha
            obtain ⟨w, hw, rfl⟩ := Option.map_eq_some_iff.1 ha
            cases w with
            | none => exact h
            | some x =>
              dsimp only
              cases hl : S.locked with
              | true => exact h
              | false =>
                simp only [Bool.false_eq_true, if_false]
                have hmem : (n, k) ∈ table := List.mem_of_find?_eq_some ho
                have hfit : Fits zero k x := by
                  cases k with
                  | int =>
                    obtain ⟨i, hi, hw⟩ := Option.map_eq_some_iff.1 hw
                    rcases ite_or hw with ⟨h1, hw⟩ | ⟨-, hw⟩
                    · cases hw
                      exact ⟨h1, ((hri v i).1 hi).2.2⟩
                    · cases hw
                  | real =>
                    obtain ⟨q, hq, hw⟩ := Option.map_eq_some_iff.1 hw
                    cases q with
                    | none => cases hw
                    | some q =>
                      rcases ite_or hw with ⟨h1, hw⟩ | ⟨-, hw⟩
                      · cases hw; exact h1
                      · cases hw
                  | choice labels =>
                    have hw := Option.some.inj hw
                    obtain ⟨l, hl, hw⟩ := Option.map_eq_some_iff.1 hw
                    cases hw
                    exact List.mem_map.2 ⟨l, List.mem_of_find?_eq_some hl, rfl⟩
                have := fits_upd h hmem hfit
                simpa only [upd, hl] using this

theorem defaults_fit {Q : Type} [LinearOrder Q] {zero rel abs : Q} (h2 : zero ≤ rel) (h3 : zero ≤ abs) :
    AllFit zero ⟨defaults rel abs, false⟩ := by
  intro e he
  simp only [table, List.mem_cons, List.not_mem_nil, or_false] at he
  rcases he with rfl | rfl | rfl | rfl | rfl | rfl | rfl | rfl | rfl | rfl <;>
    simp [Fits, defaults, h2, h3]

/-- **C40**, the options.  The registry is made without an exception.  After any sequence of calls the statuses are
those of the table in the documentation (Spec/Opts), and what the solvers read under any name is the last value that
was accepted for the option with that name, or its default; a sequence in which a call does not return is one in
which the specification says so. -/
theorem C40_history {Q : Type} [LinearOrder Q] {zero one rel abs : Q} (h1 : zero ≤ one) (h2 : zero ≤ rel)
    (h3 : zero ≤ abs) (readInt : Str → Option Int) (hri : ReadsInts readInt) (stod : Str → Option (Option Q)) :
    ∃ R0, registerOptions zero one rel abs = some R0 ∧ ∀ cs : List OptCall,
      (runReg stod cs R0).map (fun r => (r.1, readOpt r.2, r.2.readonly)) =
      (runOpts zero readInt stod cs ⟨defaults rel abs, false⟩).map fun r =>
        (r.1, fun name => (optionOf name).map fun e => r.2.vals e.1, r.2.locked) := by
  have hst : readInt = stoi := by
    funext s
    apply Option.ext
    intro v
    rw [hri s v, C40_stoi s v]
  subst hst
  refine ⟨_, register_regOf h1 h2 h3, fun cs => ?_⟩
  rw [run_regOf]
  cases hr : runOpts zero stoi stod cs ⟨defaults rel abs, false⟩ with
  | none => rfl
  | some r =>
    have hfit : AllFit zero r.2 := fits_run C40_stoi stod cs _ (defaults_fit h2 h3) hr
    simp only [Option.map_some, Option.some.injEq, Prod.mk.injEq, true_and]
    refine ⟨?_, rfl⟩
    funext name
    rw [optionOf_cases]
    unfold readOpt
    rw [getInt_regOf, getReal_regOf, getStr_regOf]
    cases h1 : intNames.find? fun n => decide (n.toList = prepStr name) with
    | some n =>
      have hm : (n, Kind.int) ∈ table := by
        rw [table_eq]
        exact List.mem_append_left _ (List.mem_map.2 ⟨n, List.mem_of_find?_eq_some h1, rfl⟩)
      have := hfit _ hm
      simp only [Option.map_some, Option.some_or]
      dsimp only at this
      cases hv : r.2.vals n with
      | int i => rfl
      | real q => rw [hv] at this; exact this.elim
      | choice l => rw [hv] at this; exact this.elim
    | none =>
      cases h2 : realNames.find? fun n => decide (n.toList = prepStr name) with
      | some n =>
        have hm : (n, Kind.real) ∈ table := by
          rw [table_eq]
          exact List.mem_append_right _ (List.mem_append_left _ (List.mem_map.2 ⟨n, List.mem_of_find?_eq_some h2, rfl⟩))
        have := hfit _ hm
        simp only [Option.map_some, Option.map_none, Option.some_or, Option.none_or]
        dsimp only at this
        cases hv : r.2.vals n with
        | int i => rw [hv] at this; exact this.elim
        | real q => rfl
        | choice l => rw [hv] at this; exact this.elim
      | none =>
        cases h3 : strTable.find? fun e => decide (e.1.toList = prepStr name) with
        | some e =>
          have hm : (e.1, Kind.choice e.2) ∈ table := by
            rw [table_eq]
            exact List.mem_append_right _
              (List.mem_append_right _ (List.mem_map.2 ⟨e, List.mem_of_find?_eq_some h3, rfl⟩))
          have := hfit _ hm
          simp only [Option.map_some, Option.map_none, Option.none_or]
          dsimp only at this
          cases hv : r.2.vals e.1 with
          | int i => rw [hv] at this; exact this.elim
          | real q => rw [hv] at this; exact this.elim
          | choice l => simp [asStr]
        | none => rfl

theorem optionOf_self : ∀ e ∈ table, optionOf e.1.toList = some e := by
  intro e' he'
  unfold optionOf
  have hinj : ∀ a ∈ table.map (·.1), ∀ b ∈ table.map (·.1), words a.toList = words b.toList → a = b := by
    decide +kernel
  cases hc : table.find? fun e => decide (words e.1.toList = words e'.1.toList) with
  | none =>
    rw [List.find?_eq_none] at hc
    have := hc e' he'
    simp at this
  | some f =>
    have h4 : words f.1.toList = words e'.1.toList := by simpa using List.find?_some hc
    have hf := List.mem_of_find?_eq_some hc
    have := hinj f.1 (List.mem_map.2 ⟨f, hf, rfl⟩) e'.1 (List.mem_map.2 ⟨e', he', rfl⟩) h4
    rw [table_inj hf he' this]

/-- **C40**, bounds.  After any sequence of calls every option has a value of its kind within its documented
bounds. -/
theorem C40_bounds {Q : Type} [LinearOrder Q] {zero one rel abs : Q} (h1 : zero ≤ one) (h2 : zero ≤ rel)
    (h3 : zero ≤ abs) (stod : Str → Option (Option Q)) (cs : List OptCall) {R0 : Registry Q}
    (hR : registerOptions zero one rel abs = some R0) {ss : List Status} {R : Registry Q}
    (hr : runReg stod cs R0 = some (ss, R)) :
    ∀ e ∈ table, ∃ v, readOpt R e.1.toList = some v ∧ Fits zero e.2 v := by
  obtain ⟨R0', hR', hall⟩ := C40_history h1 h2 h3 stoi C40_stoi stod
  rw [hR] at hR'
  cases hR'
  have := hall cs
  rw [hr] at this
  cases ho : runOpts zero stoi stod cs ⟨defaults rel abs, false⟩ with
  | none => rw [ho] at this; cases this
  | some r =>
    rw [ho] at this
    simp only [Option.map_some, Option.some.injEq, Prod.mk.injEq] at this
    intro e he
    refine ⟨r.2.vals e.1, ?_, fits_run C40_stoi stod cs _ (defaults_fit h2 h3) ho e he⟩
    rw [this.2.1]
    dsimp only
    rw [optionOf_self e he]
    rfl

/-- **C40**, the meaning of a label: what the solvers switch on is what the table says for the label stored, and
reading it throws no exception. -/
theorem C40_key {Q : Type} [LinearOrder Q] {zero one rel abs : Q} (h1 : zero ≤ one) (h2 : zero ≤ rel)
    (h3 : zero ≤ abs) (stod : Str → Option (Option Q)) (cs : List OptCall) {R0 : Registry Q}
    (hR : registerOptions zero one rel abs = some R0) {ss : List Status} {R : Registry Q}
    (hr : runReg stod cs R0 = some (ss, R)) (n : String) (labels : List (String × Int))
    (hn : (n, Kind.choice labels) ∈ table) :
    ∃ l k, readOpt R n.toList = some (.choice l) ∧ (l, k) ∈ labels ∧ R.getKey n.toList = some (some k) := by
  rw [register_regOf h1 h2 h3] at hR
  cases hR
  rw [run_regOf] at hr
  obtain ⟨r, ho, hr⟩ := Option.map_eq_some_iff.1 hr
  cases hr
  obtain ⟨v, hv, hf⟩ := C40_bounds h1 h2 h3 stod cs (register_regOf h1 h2 h3)
    (by rw [run_regOf, ho]; rfl) _ hn
  dsimp only at hv hf
  have hfit := fits_run C40_stoi stod cs _ (defaults_fit h2 h3) ho _ hn
  have hmem : (n, labels) ∈ strTable := by
    rw [table_eq] at hn
    simp only [List.mem_append, List.mem_map, Prod.mk.injEq, reduceCtorEq, and_false, exists_const, false_or] at hn
    obtain ⟨e, he, rfl, h⟩ := hn
    cases h
    exact he
  cases v with
  | int i => exact hf.elim
  | real q => exact hf.elim
  | choice l =>
    obtain ⟨⟨l', k⟩, hlk, hl⟩ := List.mem_map.1 hf
    dsimp only at hl
    subst hl
    refine ⟨l', k, hv, hlk, ?_⟩
    have hopt := optionOf_cases n.toList
    rw [optionOf_self _ hn] at hopt
    unfold readOpt at hv
    rw [getInt_regOf, getReal_regOf, getStr_regOf] at hv
    cases h1 : intNames.find? fun m => decide (m.toList = prepStr n.toList) with
    | some m => rw [h1] at hopt; simp at hopt
    | none =>
      cases h2 : realNames.find? fun m => decide (m.toList = prepStr n.toList) with
      | some m => rw [h1, h2] at hopt; simp at hopt
      | none =>
        cases h3 : strTable.find? fun e => decide (e.1.toList = prepStr n.toList) with
        | none => rw [h1, h2, h3] at hopt; simp at hopt
        | some e =>
          rw [h1, h2, h3] at hopt hv
          simp only [Option.map_some, Option.map_none, Option.none_or, Option.some.injEq, Prod.mk.injEq,
            Kind.choice.injEq, OptVal.choice.injEq] at hopt hv
          obtain ⟨rfl, rfl⟩ := hopt
          have hkey : (regOf zero one r.2).getKey e.1.toList =
              ((strOf r.2 e).labels.lookup (strOf r.2 e).value).map some := by
            unfold Registry.getKey
            rw [regOf_eq]
            dsimp only
            rw [find_map (fun e : String × List (String × Int) => e.1.toList) (strOf r.2) StrOpt.name (fun n => rfl),
              h3]
            rfl
          rw [hkey]
          have hval : (strOf r.2 e).value = l'.toList := by
            show asStr (r.2.vals e.1) = l'.toList
            rw [← hv]; simp
          rw [hval]
          show ((e.2.map fun l => (l.1.toList, l.2)).lookup l'.toList).map some = _
          have hall : ∀ e ∈ strTable, ∀ l ∈ e.2, (e.2.map fun l => (l.1.toList, l.2)).lookup l.1.toList = some l.2 := by
            decide +kernel
          rw [hall e (List.mem_of_find?_eq_some h3) (l', k) hlk]
          rfl

/-- names and labels are read without regard to case and blanks, and nothing else: they are the same to the
registry when they have the same words -/
theorem C40_names (s t : Str) : prepStr s = prepStr t ↔ words s = words t := prepStr_inj s t

/-- a call does not return when a number is needed and the text does not start with one that fits an int, or that
std::stod refuses; no other call is like that (the documentation has a status for it). -/
theorem C40_escape {Q : Type} [LinearOrder Q] (zero : Q) (stod : Str → Option (Option Q)) (S : OptState Q)
    (name v : Str) : setEffect zero stoi stod S (some name) (some v) = none ↔
      (∃ n, optionOf name = some (n, .int) ∧ ¬ ∃ i, IntText v i ∧ -2 ^ 31 ≤ i ∧ i ≤ 2 ^ 31 - 1) ∨
      (∃ n, optionOf name = some (n, .real) ∧ stod v = none) := by
  unfold setEffect
  dsimp only
  cases ho : optionOf name with
  | none => simp
  | some e =>
    obtain ⟨n, k⟩ := e
    cases k with
    | int =>
      simp only [valueOf, Option.map_map, Option.map_eq_none_iff, Option.some.injEq, Prod.mk.injEq, and_true,
        reduceCtorEq, and_false, false_and, exists_const, or_false, exists_eq_left']
      constructor
      · intro h
        rintro ⟨i, hi⟩
        rw [(C40_stoi v i).2 hi] at h
        cases h
      · intro h
        cases hs : stoi v with
        | none => rfl
        | some i => exact absurd ⟨i, (C40_stoi v i).1 hs⟩ h
    | real => simp [valueOf]
    | choice l => simp [valueOf]

/-! ### examples -/

/-- a reader of reals for the examples -/
def exStod (s : Str) : Option (Option ℚ) := (stoi s).map fun i => some (i : ℚ)

def exCalls : List OptCall :=
  [.set (some "  CG   Iteration\tLimit ".toList) (some " +37 turns".toList),
   .set (some "cg rel tolerance".toList) (some "2".toList),
   .set (some "cg rel tolerance".toList) (some "-1".toList),
   .set (some "iterative method".toList) (some " GM   Res".toList),
   .set (some "restart".toList) (some "3".toList),
   .lock,
   .set (some "cg iteration limit".toList) (some "12".toList),
   .unlock,
   .set (some "gmres restart iterations".toList) (some "0".toList),
   .set none (some "0".toList)]

def exRun : Option (List Status × Option Int × Option ℚ × Option Int × Option (Option Int)) := do
  let R0 ← registerOptions (0 : ℚ) 1 (1 / 2) (1 / 4)
  let r ← runReg exStod exCalls R0
  some (r.1, r.2.getInt "CG iteration limit".toList, r.2.getReal "cg rel tolerance".toList,
    r.2.getInt "gmres restart iterations".toList, r.2.getKey "iterative method".toList)

set_option synthInstance.maxSize 1000 in
/-- the hypotheses of the theorems are met, and the calls of the example have an effect -/
example : exRun = some ([.success, .success, .invalidValue, .success, .invalidValue, .invalidValue, .invalidValue,
    .invalidPointer], some 37, some 2, some 20, some (some 2)) := by decide +kernel

/-- a text that is not a number, and one that does not fit: the call does not return -/
example : ((registerOptions (0 : ℚ) 1 (1 / 2) (1 / 4)).map fun R0 =>
    ((parseOption exStod R0 (some "cg iteration limit".toList) (some "many".toList)).isNone,
     (parseOption exStod R0 (some "cg iteration limit".toList) (some "3000000000".toList)).isNone)) =
    some (true, true) := by decide +kernel

example : IntText " -12x".toList (-12) :=
  ⟨[' '], ['-'], ['1', '2'], ['x'], rfl, by decide, by simp, by simp, by decide,
    fun c t e => by cases e; decide, by decide +kernel⟩

end Props
end Verif
