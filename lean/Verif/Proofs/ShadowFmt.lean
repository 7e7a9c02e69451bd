/-
The blocked copy of a CSR matrix in three arithmetics (see Shadow.lean); formats of a matrix and of its image.
-/
import Verif.Proofs.ShadowTri
import Verif.Proofs.Br4
import Verif.Proofs.Tcsr
import Verif.Proofs.CsrmvTri

namespace Verif
open Model Rounding

section br4
variable {R : Type} [Zero R] [One R] [Add R] [Mul R] [DecidableEq R]
  {ρ : Rounding} {v : R → ℝ} {fac : R → Option (ℝ × ℝ)}

/-- the blocked copy of the image -/
def Model.Br4.mapTo {S : Type} (f : R → S) (B : Br4 R) : Br4 S := ⟨B.ptr, B.ind, B.val.map f⟩

/-- the sums of the four rows of a block -/
def br4Acc {T : Type} [Zero T] [Add T] [Mul T] (base : Int) (B : Br4 T) (x : List T) (i : Int) : Option (T × T × T × T) :=
  (rd B.ptr (i * 4)).bind fun r => (rd B.ptr (i * 4 + 1)).bind fun r1 =>
    forC 0 (r1 - r) (fun j v => fma4 B.ind B.val x base (r - base + j * 4) v) (0, 0, 0, 0)

/-- the sum of a row of the remainder -/
def br4One {T : Type} [Zero T] [Add T] [Mul T] (base : Int) (B : Br4 T) (x : List T) (k : Int) : Option T :=
  (rd B.ptr k).bind fun p0 => (rd B.ptr (k + 1)).bind fun p1 =>
    forC (p0 - base) (p1 - base) (fun j r => do
      let t ← term B.ind B.val x base j
      some (r + t)) 0

theorem br4Group_eq {T : Type} [Zero T] [One T] [Add T] [Mul T] [DecidableEq T] (alpha beta : T) (base : Int) (B : Br4 T)
    (x : List T) (i : Int) (y : List T) :
    br4Group alpha beta base B x i y = (br4Acc base B x i).bind fun r => storeRow4 alpha beta r (i * 4) y := by
  unfold br4Group br4Acc
  simp only [Option.bind_eq_bind, Option.bind_assoc]

theorem br4Rest_eq {T : Type} [Zero T] [One T] [Add T] [Mul T] [DecidableEq T] (alpha beta : T) (base : Int) (B : Br4 T)
    (x : List T) (i : Int) (y : List T) :
    br4Rest alpha beta base B x i y = (br4One base B x i).bind fun r => storeRow alpha beta r i y := by
  unfold br4Rest br4One
  simp only [Option.bind_eq_bind, Option.bind_assoc]

theorem br4Acc_rel (hR : Contracts ρ v fac) (B : Br4 R) {x : List R} (hx : ∀ a ∈ x, fac a = none) (base i : Int) (N : Nat)
    (hN : ∀ r r1, rd B.ptr (i * 4) = some r → rd B.ptr (i * 4 + 1) = some r1 → (r1 - r).toNat ≤ N) :
    Opt3 (Near4 ρ v fac (N + 1)) (br4Acc base B x i) (br4Acc base (B.mapTo v) (x.map v) i)
      (br4Acc base (B.mapTo fun a => |v a|) (szs v x) i) := by
  unfold br4Acc
  simp only [Br4.mapTo]
  cases h1 : rd B.ptr (i * 4) with
  | none => trivial
  | some r =>
  cases h2 : rd B.ptr (i * 4 + 1) with
  | none => trivial
  | some r1 =>
  have hN := hN r r1 h1 h2
  simp only [Option.bind_some]
  exact Opt3.mono (fun _ _ _ h => Near4.mono h (by omega)) (fma4Loop_rel hR hx base (r1 - r) fun j => r - base + j * 4)

omit [One R] [DecidableEq R] in
theorem br4One_rel (hR : Contracts ρ v fac) (B : Br4 R) {x : List R} (hx : ∀ a ∈ x, fac a = none) (base i : Int) (N : Nat)
    (hN : ∀ r r1, rd B.ptr i = some r → rd B.ptr (i + 1) = some r1 → (r1 - r).toNat ≤ N) :
    Opt3 (fun a e s => NearC ρ v fac (N + 1) e s a) (br4One base B x i) (br4One base (B.mapTo v) (x.map v) i)
      (br4One base (B.mapTo fun a => |v a|) (szs v x) i) := by
  unfold br4One
  simp only [Br4.mapTo]
  cases h1 : rd B.ptr i with
  | none => trivial
  | some r =>
  cases h2 : rd B.ptr (i + 1) with
  | none => trivial
  | some r1 =>
  have hN := hN r r1 h1 h2
  simp only [Option.bind_some]
  refine Opt3.mono (fun _ _ _ h => NearC.mono h ?_)
    (Opt3.forC (fun j a e s => NearC ρ v fac (1 + j) e s a) ((NearC.zero hR).mono (Nat.zero_le 1)) fun j _ a e s hn => ?_)
  · omega
  · refine Opt3.bind (term_rel hR hx _ _) fun a1 e1 s1 g1 => ?_
    exact NearC.add hR hn (g1.mono (show 1 ≤ 1 + j by omega))

theorem br4Mv_rel (hR : Contracts ρ v fac) (h1 : v 1 = 1) (B : Br4 R) {x y : List R}
    (hx : ∀ a ∈ x, fac a = none) (hy : ∀ a ∈ y, fac a = none) (base : Int) (alpha beta : R) (m N : Nat)
    (hN : ∀ i r r1, i < m → rd B.ptr (i : Int) = some r → rd B.ptr ((i : Int) + 1) = some r1 → (r1 - r).toNat ≤ N) :
    Opt3 (YRel ρ v fac (fun _ => N + 3) y (· < m)) (br4Mv alpha m base B x beta y)
      (br4Mv (v alpha) m base (B.mapTo v) (x.map v) (v beta) (y.map v))
      (br4Mv |v alpha| m base (B.mapTo fun a => |v a|) (szs v x) |v beta| (szs v y)) := by
  unfold br4Mv
  have g : ∀ {T : Type} [Zero T] [One T] [Add T] [Mul T] [DecidableEq T] (a b : T) (B : Br4 T) (x : List T),
      br4Group a b base B x = fun i y => (br4Acc base B x i).bind fun r => (shPut (finB a b) r.1 (i * 4) y).bind fun y =>
        (shPut (finB a b) r.2.1 (i * 4 + 1) y).bind fun y => (shPut (finB a b) r.2.2.1 (i * 4 + 2) y).bind fun y =>
          shPut (finB a b) r.2.2.2 (i * 4 + 3) y := by
    intro T _ _ _ _ _ a b B x
    funext i y
    simp only [br4Group_eq, storeRow4_put]
  have g' : ∀ {T : Type} [Zero T] [One T] [Add T] [Mul T] [DecidableEq T] (a b : T) (B : Br4 T) (x : List T),
      br4Rest a b base B x = fun i y => (br4One base B x i).bind fun r => shPut (finS a b) r i y := by
    intro T _ _ _ _ _ a b B x
    funext i y
    simp only [br4Rest_eq, storeRow_put]
  rw [tdiv4]
  simp only [g, g']
  refine Opt3.bind (blocks_rel (finB_rel hR h1 alpha beta) hy (k := N + 1) (fun i => le_rfl)
    (o := br4Acc base B x) (oe := br4Acc base (B.mapTo v) (x.map v)) (os := br4Acc base (B.mapTo fun a => |v a|) (szs v x))
    (fun i hi => br4Acc_rel hR B hx base i N ?_)) ?_
  · intro r r1 e1 e2
    exact hN (i * 4) r r1 (by omega) (by push_cast; exact e1) (by push_cast; exact e2)
  · intro a b c h
    have := rows_rel (finS_rel hR h1 alpha beta) hy (show m / 4 * 4 ≤ m by omega) (k := fun _ => N + 1) (fun i => le_rfl)
      (row := br4One base B x) (rowe := br4One base (B.mapTo v) (x.map v))
      (rows' := br4One base (B.mapTo fun a => |v a|) (szs v x))
      (fun i hi => br4One_rel hR B hx base i N fun r r1 e1 e2 => hN i r r1 hi e1 e2) h
    push_cast at this
    push_cast
    exact this
end br4

/-! ### formats of the image -/
section image
variable {R S : Type}

theorem mapTo_row_len (f : R → S) (A : Csr R) (i : Nat) : ((A.mapTo f).row i).length = (A.row i).length := by
  rw [mapTo_row, List.length_map]

theorem br4Wid_map (f : R → S) (A : Csr R) (i : Nat) : br4Wid (A.mapTo f) i = br4Wid A i := by
  unfold br4Wid
  simp only [mapTo_row_len]
  rfl

theorem br4Last_map (f : R → S) (A : Csr R) : ∀ i, br4Last (A.mapTo f) i = br4Last A i
  | 0 => rfl
  | i + 1 => by
    unfold br4Last
    rw [mapTo_row, List.getLast?_map]
    cases (A.row i).getLast? with
    | none => exact br4Last_map f A i
    | some e => rfl

theorem br4Rows_map [Zero R] [Zero S] (f : R → S) (f0 : f 0 = 0) (A : Csr R) (i : Nat) :
    br4Rows (A.mapTo f) i = (br4Rows A i).map fun e => (e.1, f e.2) := by
  unfold br4Rows
  rw [br4Wid_map, br4Last_map, mapTo_row_len, mapTo_row, List.map_append, List.map_replicate]
  simp only [f0]
  rfl

theorem isBr4_map [Zero R] [Zero S] (f : R → S) (f0 : f 0 = 0) {A : Csr R} {B : Br4 R} (h : IsBr4 A B) :
    IsBr4 (A.mapTo f) (B.mapTo f) := by
  have ho : ∀ i, offs (br4Rows (A.mapTo f)) i = offs (br4Rows A) i := by
    intro i
    unfold offs
    simp only [br4Rows_map f f0, List.length_map]
  refine ⟨?_, ?_⟩
  · show B.ptr = _
    rw [h.ptr]
    simp only [ho]
    rfl
  · intro i t e hi he
    rw [br4Rows_map f f0, List.getElem?_map] at he
    obtain ⟨e', h1, rfl⟩ := Option.map_eq_some_iff.1 he
    obtain ⟨c1, c2⟩ := h.cells i t e' hi h1
    have hp : br4Pos (A.mapTo f) i t = br4Pos A i t := by
      unfold br4Pos
      simp only [ho]
      rfl
    rw [hp]
    exact ⟨c1, by show (B.val.map f)[_]? = _; rw [List.getElem?_map, c2]; rfl⟩

theorem clean_map (f : R → S) {A : Csr R} {idiag iurow : List Int} (h : Clean A idiag iurow) :
    Clean (A.mapTo f) idiag iurow := by
  intro i hi
  obtain ⟨L, D, U, h0, h1, h2, h3, h4, h5, h6⟩ := h i hi
  let g := fun e : Int × R => (e.1, f e.2)
  refine ⟨L.map g, D.map g, U.map g, ?_, ?_, ?_, ?_, ?_, ?_, ?_⟩
  · rw [mapTo_row, h0, List.map_append, List.map_append]
  · intro e he; obtain ⟨e', he', rfl⟩ := List.mem_map.1 he; exact h1 e' he'
  · intro e he; obtain ⟨e', he', rfl⟩ := List.mem_map.1 he; exact h2 e' he'
  · intro e he; obtain ⟨e', he', rfl⟩ := List.mem_map.1 he; exact h3 e' he'
  · rw [List.length_map]; exact h4
  · rw [List.length_map, List.length_map]; exact h5
  · intro hn; rw [List.length_map]; exact h6 hn

theorem tcsrOk_map (f : R → S) {T : Tcsr R} {L U : Csr R} (h : TcsrOk T L U) :
    TcsrOk (T.mapTo f) (L.mapTo f) (U.mapTo f) where
  wfL := mapTo_wf f h.wfL
  wfU := mapTo_wf f h.wfU
  lower := ⟨h.lower.first, h.lower.mono, fun i hi => by rw [mapTo_cols]; exact h.lower.rows i hi⟩
  upper := ⟨h.upper.first, h.upper.mono, fun i hi => by rw [mapTo_cols]; exact h.upper.rows i hi⟩
  sq := h.sq
  um := h.um
  un := h.un
  ub := h.ub
  base := h.base
  m := h.m
  n := h.n
  nnz := h.nnz
  ptrL := h.ptrL
  ptrU := h.ptrU
  indL := h.indL
  indU := h.indU
  valL := by show T.valL.map f = L.val.map f; rw [h.valL]
  valU := by show T.valU.map f = U.val.map f; rw [h.valU]
  idiag := h.idiag
  iurow := h.iurow
end image

/-- the entries a triangular product reads in a row -/
theorem tri_len {R : Type} {A : Csr R} (hA : A.WF) {idiag iurow : List Int} (hcl : Clean A idiag iurow) (f : Fill) (Dg : Diag)
    (hsh : Dg = .nonUnit ∨ A.m ≤ A.n) {i : Nat} (hi : i < A.m) (b : Int × Int)
    (hb : triBounds f.code A.ptr idiag iurow i = some b) :
    (b.2 + triEnd f.code Dg.code - (b.1 + triStart f.code Dg.code)).toNat ≤ (A.row i).length := by
  obtain ⟨L, D, U, h⟩ := hcl i hi
  have h0 : (A.row i).length = L.length + D.length + U.length := by rw [h.1]; simp; omega
  have e1 := Csr.WF.rd_ptr hA (i := i) (by omega)
  have e2 := Csr.WF.rd_ptr hA (i := i + 1) (by omega)
  have e3 := Csr.row_length hA hi
  rw [show ((i + 1 : Nat) : Int) = (i : Int) + 1 by push_cast; rfl] at e2
  obtain ⟨-, -, -, -, h4, h5, -⟩ := h
  have q1 : triEnd f.code Dg.code ≤ 0 := by unfold triEnd; split <;> omega
  have q2 : 0 ≤ triStart f.code Dg.code := by unfold triStart; split <;> omega
  cases f
  · rw [show triBounds (Fill.code .lower) A.ptr idiag iurow i = some (A.p i, A.p i + L.length + D.length) by
      simp [triBounds, Fill.code, e1, h5]] at hb
    cases hb
    dsimp only
    omega
  · rw [show triBounds (Fill.code .upper) A.ptr idiag iurow i = some (A.p i + L.length, A.p (i + 1)) by
      simp [triBounds, Fill.code, e2, h4]] at hb
    cases hb
    dsimp only
    omega

end Verif
