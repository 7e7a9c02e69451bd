/-
Lemmas for aoclsparse_order_mat: sorting the rows in place.
-/
import Verif.Proofs.Update

namespace Verif
open Model Finset

variable {R : Type}

/-- sort_mat: the rows are permuted and sorted -/
theorem sortMat_spec {A : Csr R} (hA : A.WF) (hnd : A.NoDup)
    {srt : (Int → Int → Bool) → List Int → List Int} (hsrt : StdSort srt) :
    ∃ A' : Csr R, sortMat srt A.m A.nnz A.base A.ptr A.ind A.val = some (A'.ind, A'.val) ∧
      A'.WF ∧ IsOrdered A A' := by
  obtain ⟨rows, h1, h2⟩ := sortIdxVal_spec hA hnd hsrt (db := A.base) (by simp) (dind := A.ind) (dval := A.val)
    rfl hA.val_len
  refine ⟨mkCsr A.m A.n A.base rows, h1, mkCsr_wf hA.base01 ?_, rfl, rfl, rfl, ?_, ?_, ?_⟩
  · intro i hi e he
    exact Csr.row_range hA ((h2 i hi).1.mem_iff.1 he)
  · conv_rhs => rw [hA.eq_mkCsr]
    have key : ∀ k, k ≤ A.m → offs rows k = offs A.row k := by
      intro k
      induction k with
      | zero => intro _; rfl
      | succ k ih =>
        intro hk
        rw [offs_succ, offs_succ, ih (by omega), (h2 k (by omega)).1.length_eq]
    show List.map _ _ = List.map _ _
    apply List.map_congr_left
    intro k hk
    rw [key k (by have := List.mem_range.1 hk; omega)]
  · intro i hi
    rw [mkCsr_row hi]
    exact (h2 i hi).1
  · intro i hi
    have hi : i < A.m := hi
    rw [mkCsr_row hi]
    exact (h2 i hi).2

/-! ### what does not depend on the order in the rows -/

section
variable {A A' : Csr R}

theorem IsOrdered.p_eq (h : IsOrdered A A') (i : Nat) : A'.p i = A.p i := by
  unfold Csr.p; rw [h.ptr]

theorem IsOrdered.cols (h : IsOrdered A A') {i : Nat} (hi : i < A.m) : (A'.cols i).Perm (A.cols i) :=
  (h.rows i hi).map _

theorem IsOrdered.noDup (h : IsOrdered A A') (hn : A.NoDup) : A'.NoDup := by
  intro i hi
  rw [h.m] at hi
  exact (h.cols hi).nodup_iff.2 (hn i hi)

theorem IsOrdered.fullDiag (h : IsOrdered A A') : A'.FullDiag ↔ A.FullDiag := by
  unfold Csr.FullDiag
  rw [h.m, h.n]
  constructor
  · intro k i hi hin
    exact (h.cols hi).mem_iff.1 (k i hi hin)
  · intro k i hi hin
    exact (h.cols hi).mem_iff.2 (k i hi hin)

theorem IsOrdered.upperCount (h : IsOrdered A A') {i : Nat} (hi : i < A.m) :
    upperCount A' i = upperCount A i :=
  ((h.rows i hi).filter _).length_eq

theorem IsOrdered.mat [CommRing R] (h : IsOrdered A A') (hA : A.WF) (hA' : A'.WF) : A'.mat = A.mat := by
  funext i j
  by_cases hi : i < A.m
  · unfold Csr.mat Csr.entry
    exact (((h.rows i hi).filter _).map _).sum_eq
  · rw [Csr.mat_out hA (by omega), Csr.mat_out hA' (by rw [h.m]; omega)]

/-- sorting a matrix that is already split at the diagonal does not move the split -/
theorem IsOrdered.clean (h : IsOrdered A A') {idl iul : List Int} (hc : Clean A idl iul) :
    Clean A' idl iul := by
  intro i hi
  rw [h.m] at hi
  obtain ⟨L, D, U, h1, h2, h3, h4, h5, h6, h7⟩ := hc i hi
  obtain ⟨L', D', U', g1, g2, g3, g4⟩ : ∃ L' D' U', A'.row i = L' ++ D' ++ U' ∧
      (∀ e ∈ L', e.1 < (i : Int)) ∧ (∀ e ∈ D', e.1 = (i : Int)) ∧ (∀ e ∈ U', (i : Int) < e.1) :=
    ⟨_, _, _, grouped_split (sorted_grouped (i := i) (h.sorted i (by rw [h.m]; exact hi))),
      fun e he => (mem_loPart.1 he).2, fun e he => (mem_dgPart.1 he).2, fun e he => (mem_upPart.1 he).2⟩
  have hp : (L' ++ D' ++ U').Perm (L ++ D ++ U) := by rw [← h1, ← g1]; exact h.rows i hi
  have fl : ∀ (X : List (Int × R)) (p : Int → Bool), (∀ e ∈ X, p e.1 = true) →
      (X.filter fun e => p e.1) = X := fun X p hX => List.filter_eq_self.2 hX
  have fn : ∀ (X : List (Int × R)) (p : Int → Bool), (∀ e ∈ X, p e.1 = false) →
      (X.filter fun e => p e.1) = [] := fun X p hX => List.filter_eq_nil_iff.2 (fun e he => by simp [hX e he])
  have q1 := (hp.filter fun e => decide (e.1 < (i : Int))).length_eq
  have q2 := (hp.filter fun e => decide (e.1 = (i : Int))).length_eq
  simp only [List.filter_append] at q1 q2
  rw [fl L' (fun c => decide (c < (i : Int))) (fun e he => by simpa using g2 e he),
    fn D' (fun c => decide (c < (i : Int))) (fun e he => by have := g3 e he; simp; omega),
    fn U' (fun c => decide (c < (i : Int))) (fun e he => by have := g4 e he; simp; omega),
    fl L (fun c => decide (c < (i : Int))) (fun e he => by simpa using h2 e he),
    fn D (fun c => decide (c < (i : Int))) (fun e he => by have := h3 e he; simp; omega),
    fn U (fun c => decide (c < (i : Int))) (fun e he => by have := h4 e he; simp; omega)] at q1
  rw [fn L' (fun c => decide (c = (i : Int))) (fun e he => by have := g2 e he; simp; omega),
    fl D' (fun c => decide (c = (i : Int))) (fun e he => by simpa using g3 e he),
    fn U' (fun c => decide (c = (i : Int))) (fun e he => by have := g4 e he; simp; omega),
    fn L (fun c => decide (c = (i : Int))) (fun e he => by have := h2 e he; simp; omega),
    fl D (fun c => decide (c = (i : Int))) (fun e he => by simpa using h3 e he),
    fn U (fun c => decide (c = (i : Int))) (fun e he => by have := h4 e he; simp; omega)] at q2
  simp only [List.append_nil, List.nil_append] at q1 q2
  refine ⟨L', D', U', g1, g2, g3, g4, ?_, ?_, ?_⟩
  · rw [h.p_eq, q1]; exact h5
  · rw [h.p_eq, q1, q2]; exact h6
  · rw [h.n, q2]; exact h7

end

/-! ### the handle -/

section
variable [CommRing R] [StarRing R] {A A' : Csr R} {ta : Bool} {H : MvHandle R}

/-- the object is a CSR array set (not one of the formats for products) -/
def Model.Stored.isCsr : Stored R → Prop
  | .csr _ _ _ => True
  | _ => False

theorem StoredOk.ordered (hA : A.WF) (hA' : A'.WF) (h : IsOrdered A A') (hnd : A.NoDup) {s : Stored R}
    (hs : s.isCsr) (hok : StoredOk ta A s) : StoredOk ta A' s := by
  have hm : userMat ta A' = userMat ta A := by unfold userMat; rw [h.mat hA hA']
  have hr : userRows ta A' = userRows ta A := by unfold userRows; rw [h.m, h.n]
  have hc : userCols ta A' = userCols ta A := by unfold userCols; rw [h.m, h.n]
  cases s with
  | csr c o iu =>
    obtain ⟨k1, k2, k3, k4⟩ := hok
    refine ⟨by rw [hm, hr, hc]; exact k1, by rw [hr, hc]; exact k2, k3, ?_⟩
    intro ho
    obtain ⟨q1, q0, q2, q3, q4⟩ := k4 ho
    refine ⟨q1.trans (by cases ta <;> rfl), by rw [h.base]; exact q0, ?_, ?_, ?_⟩
    · intro i hi
      rw [h.m] at hi
      rw [hr, hc, q2 i hi, h.upperCount hi]
    · intro _
      rw [hr, hc]; exact q3 hnd
    · rw [hr, hc]; exact q4
  | _ => cases hs

theorem HandleOk.ordered (hA : A.WF) (hA' : A'.WF) (h : IsOrdered A A') (hnd : A.NoDup)
    (hH : HandleOk ta A H) {idl : Option (List Int)} {o : Bool} {iu : Option (List Int)}
    {rest : List (Stored R)} (hf : H.mats = .csr { (A.raw ta).copy0 with idiag := idl } o iu :: rest)
    (hr : ∀ s ∈ rest, s.isCsr) :
    HandleOk ta A' { H with
      raw := A'.raw ta
      mats := .csr { (A'.raw ta).copy0 with idiag := idl } o iu :: rest } := by
  obtain ⟨k1, k2⟩ := copy0_idiag_ok hA' ta idl
  have k2' := (copy0_idiag_ok hA ta idl).2
  refine ⟨rfl, ⟨idl, o, iu, rest, rfl⟩, ?_, fun _ => h.sorted, ?_⟩
  · intro s hs
    rcases List.mem_cons.1 hs with rfl | hs
    · have hst := hH.all _ (by rw [hf]; exact List.mem_cons_self)
      refine ⟨k1, ?_, ?_, ?_⟩
      · rw [k2]; cases ta <;> rfl
      · intro _; cases ta <;> exact ⟨rfl, rfl⟩
      · intro ho
        obtain ⟨-, -, -, hst⟩ := hst
        obtain ⟨-, -, -, -, il, ul, q1, q2, q3⟩ := hst ho
        refine ⟨by cases ta <;> rfl, .inr (by cases ta <;> rfl), fun i _ => by rw [k2], fun h => by rw [k2]; exact h, il, ul, q1, q2, ?_⟩
        rw [k2]
        rw [k2'] at q3
        exact h.clean q3
    · exact (hH.all s (by rw [hf]; exact List.mem_cons_of_mem _ hs)).ordered hA hA' h hnd (hr s hs)
  · intro s hs ho
    rw [h.fullDiag]
    rcases List.mem_cons.1 hs with rfl | hs
    · exact hH.full (.csr { (A.raw ta).copy0 with idiag := idl } o iu) (by rw [hf]; exact List.mem_cons_self) ho
    · exact hH.full s (by rw [hf]; exact List.mem_cons_of_mem _ hs) ho

end

end Verif
