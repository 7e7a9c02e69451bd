/-
Models of the ELL conversions
  library/src/conversion/aoclsparse_convert.hpp
    aoclsparse_csr2ell_template          (lines 40-107)
    aoclsparse_csr2ellt_template         (lines 109-175)
    aoclsparse_csr2ellthybrid_template   (lines 177-288)
  library/src/conversion/aoclsparse_convert.cpp
    aoclsparse_csr2ell_width             (lines 311-342)
    aoclsparse_csr2ellthyb_width         (lines 344-408)
The descriptor only contributes its base.  Output arrays come with arbitrary old content.
-/
import Verif.Core.Mem
import Verif.Core.Types

namespace Verif
namespace Model

variable {R : Type} [Zero R]

/-- convert.cpp:332-339 — the width loop. -/
def ellWidthLoop (m : Int) (ptr : List Int) : Option Int :=
  forC 0 m (fun i w => do
    let b ← rd ptr (i + 1)
    let a ← rd ptr i
    some (max (b - a) w)) 0

/-- convert.cpp:311-342 — aoclsparse_csr2ell_width (`ell_width` non-null). -/
def csr2ellWidth (m : Int) (ptr : Option (List Int)) (old : Int) : Option (Status × Int) :=
  if m < 0 then some (.invalidSize, old)
  else match ptr with
    | none => some (.invalidPointer, old)
    | some ptr => do
      let w ← ellWidthLoop m ptr
      some (.success, w)

/-- convert.hpp:84-105 — csr2ell after the checks; the position `p` is carried as in the code. -/
def csr2ellCore (m base : Int) (ptr ind : List Int) (val : List R) (w : Int)
    (ec : List Int) (ev : List R) : Option (List Int × List R) :=
  forC 0 m (fun i s => do
    let rb ← rd ptr i
    let re ← rd ptr (i + 1)
    let row_begin := rb - base
    let row_end := re - base
    let row_nnz := row_end - row_begin
    let ps ← forC row_begin row_end (fun j (ps : Int × List Int × List R) => do
      let c ← rd ind j
      let v ← rd val j
      let ec ← wr ps.2.1 ps.1 c
      let ev ← wr ps.2.2 ps.1 v
      some (ps.1 + 1, ec, ev)) (i * w, s)
    let ps ← forC row_nnz w (fun _ (ps : Int × List Int × List R) => do
      let ec ← wr ps.2.1 ps.1 (-1)
      let ev ← wr ps.2.2 ps.1 0
      some (ps.1 + 1, ec, ev)) ps
    some ps.2) (ec, ev)

/-- convert.hpp:40-107 — aoclsparse_csr2ell_template. -/
def csr2ell (m base : Int) (ptr ind : Option (List Int)) (val : Option (List R))
    (ec : Option (List Int)) (ev : Option (List R)) (w : Int) :
    Option (Status × Option (List Int) × Option (List R)) :=
  if m < 0 ∨ w < 0 then some (.invalidSize, ec, ev)
  else if m = 0 ∨ w = 0 then some (.success, ec, ev)
  else match val, ptr, ind, ev, ec with
    | some val, some ptr, some ind, some ev, some ec => do
      let r ← csr2ellCore m base ptr ind val w ec ev
      some (.success, some r.1, some r.2)
    | _, _, _, _, _ => some (.invalidPointer, ec, ev)

/-- convert.hpp:154-173 — csr2ellt after the checks.  The padding index is read from
`csr_col_ind[row_end - 1]` whatever the row contains. -/
def csr2elltCore (m base : Int) (ptr ind : List Int) (val : List R) (w : Int)
    (ec : List Int) (ev : List R) : Option (List Int × List R) :=
  forC 0 m (fun i s => do
    let rb ← rd ptr i
    let re ← rd ptr (i + 1)
    let row_begin := rb - base
    let row_end := re - base
    let ks ← forC row_begin row_end (fun j (ks : Int × List Int × List R) => do
      let c ← rd ind j
      let v ← rd val j
      let ec ← wr ks.2.1 (ks.1 * m + i) c
      let ev ← wr ks.2.2 (ks.1 * m + i) v
      some (ks.1 + 1, ec, ev)) (0, s)
    forC ks.1 w (fun k s => do
      let c ← rd ind (row_end - 1)
      let ec ← wr s.1 (k * m + i) c
      let ev ← wr s.2 (k * m + i) 0
      some (ec, ev)) ks.2) (ec, ev)

/-- convert.hpp:109-175 — aoclsparse_csr2ellt_template. -/
def csr2ellt (m base : Int) (ptr ind : Option (List Int)) (val : Option (List R))
    (ec : Option (List Int)) (ev : Option (List R)) (w : Int) :
    Option (Status × Option (List Int) × Option (List R)) :=
  if m < 0 ∨ w < 0 then some (.invalidSize, ec, ev)
  else if m = 0 ∨ w = 0 then some (.success, ec, ev)
  else match val, ptr, ind, ev, ec with
    | some val, some ptr, some ind, some ev, some ec => do
      let r ← csr2elltCore m base ptr ind val w ec ev
      some (.success, some r.1, some r.2)
    | _, _, _, _, _ => some (.invalidPointer, ec, ev)

/-- convert.cpp:379-397 — one step of the statistics loop; state: mx_nnz_lt_nnza,
mn_nnz_gt_nnza, cmn, cmx -/
def hybStat (nnza : Int) (ptr : List Int) (i : Int) (s : Int × Int × Int × Int) :
    Option (Int × Int × Int × Int) := do
  let b ← rd ptr (i + 1)
  let a ← rd ptr i
  let nnzi := b - a
  let mx := if nnzi > s.1 ∧ nnzi ≤ nnza then nnzi else s.1
  let mn := if nnzi < s.2.1 ∧ nnzi > nnza then nnzi else s.2.1
  if nnzi ≤ nnza then some (mx, mn, s.2.2.1, s.2.2.2 + 1)
  else some (mx, mn, s.2.2.1 + 1, s.2.2.2)

/-- convert.cpp:376-405 — hybrid width selection: (ell_m, ell_width).  C++ division truncates. -/
def ellthybWidthCore (m nnz : Int) (ptr : List Int) : Option (Int × Int) := do
  let nnza := nnz.tdiv m
  let s ← forC 0 m (hybStat nnza ptr) (0, nnz, 0, 0)
  let w := if s.2.2.2 ≥ s.2.2.1 then s.1 else s.2.1
  let em ← forC 0 m (fun i em => do
    let b ← rd ptr (i + 1)
    let a ← rd ptr i
    some (if b - a ≤ w then em + 1 else em)) (0 : Int)
  some (em, w)

/-- convert.cpp:344-408 — aoclsparse_csr2ellthyb_width; both output pointers non-null (they are
written before being checked when m = 0).  Result: status, ell_m, ell_width. -/
def csr2ellthybWidth (m nnz : Int) (ptr : Option (List Int)) (em w : Int) :
    Option (Status × Int × Int) :=
  if m < 0 then some (.invalidSize, em, w)
  else if m = 0 then some (.success, 0, 0)
  else match ptr with
    | none => some (.invalidPointer, em, w)
    | some ptr => do
      let r ← ellthybWidthCore m nnz ptr
      some (.success, r.1, r.2)

/-- convert.hpp:241-283 — one row of the hybrid conversion; state: t_csr_ridx, t_ridx, row map,
ell_col_ind, ell_val.  The row stride of the ELL arrays is `m` (line 260). -/
def ellthybRow (m base : Int) (ptr ind : List Int) (val : List R) (w : Int) (i : Int)
    (s : Int × Int × List Int × List Int × List R) :
    Option (Int × Int × List Int × List Int × List R) := do
  let (tc, tr, map, ec, ev) := s
  let rb ← rd ptr i
  let re ← rd ptr (i + 1)
  let row_begin := rb - base
  let row_end := re - base
  if row_end - row_begin > w then do
    let map ← wr map tc i
    let r ← forC 0 w (fun j (s : List Int × List R) => do
      let c ← rd ind (row_end - 1)
      let ec ← wr s.1 (j * m + tr) c
      let ev ← wr s.2 (j * m + tr) 0
      some (ec, ev)) (ec, ev)
    some (tc + 1, tr + 1, map, r.1, r.2)
  else do
    let ks ← forC row_begin row_end (fun j (ks : Int × List Int × List R) => do
      let c ← rd ind j
      let v ← rd val j
      let ec ← wr ks.2.1 (ks.1 * m + tr) c
      let ev ← wr ks.2.2 (ks.1 * m + tr) v
      some (ks.1 + 1, ec, ev)) (0, ec, ev)
    let r ← forC ks.1 w (fun k (s : List Int × List R) => do
      let c ← rd ind (row_end - 1)
      let ec ← wr s.1 (k * m + tr) c
      let ev ← wr s.2 (k * m + tr) 0
      some (ec, ev)) ks.2
    some (tc, tr + 1, map, r.1, r.2)

/-- convert.hpp:231-286 — csr2ellthybrid after the checks.  Result: (ell_m, row map, ell_col_ind,
ell_val). -/
def csr2ellthybridCore (m base : Int) (ptr ind : List Int) (val : List R) (w : Int)
    (map : List Int) (ec : List Int) (ev : List R) :
    Option (Int × List Int × List Int × List R) := do
  let ell_m ← forC 0 m (fun k em => do
    let b ← rd ptr (k + 1)
    let a ← rd ptr k
    some (if b - a ≤ w then em + 1 else em)) (0 : Int)
  let r ← forC 0 m (ellthybRow m base ptr ind val w) (0, 0, map, ec, ev)
  some (ell_m, r.2.2.1, r.2.2.2.1, r.2.2.2.2)

/-- convert.hpp:177-288 — aoclsparse_csr2ellthybrid_template (`ell_m` non-null).  Result: status,
ell_m, row map, ell_col_ind, ell_val. -/
def csr2ellthybrid (m base em : Int) (ptr ind : Option (List Int)) (val : Option (List R))
    (map ec : Option (List Int)) (ev : Option (List R)) (w : Int) :
    Option (Status × Int × Option (List Int) × Option (List Int) × Option (List R)) :=
  if m < 0 ∨ w < 0 then some (.invalidSize, em, map, ec, ev)
  else if m = 0 then some (.success, em, map, ec, ev)
  else match val, ptr, ind, ev, ec, map with
    | some val, some ptr, some ind, some ev, some ec, some map => do
      let r ← csr2ellthybridCore m base ptr ind val w map ec ev
      some (.success, r.1, some r.2.1, some r.2.2.1, some r.2.2.2)
    | _, _, _, _, _, _ => some (.invalidPointer, em, map, ec, ev)

end Model
end Verif
