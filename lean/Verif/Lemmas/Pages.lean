import Verif.Lemmas.Query

/-! # Lemmas about pages -/

namespace Ckube

theorem wrap64_id {i : Int} (h1 : -9223372036854775808 ≤ i) (h2 : i < 9223372036854775808) : wrap64 i = i := by
  unfold wrap64; omega

/-- A page and page size whose end is an `int64`. -/
theorem bounds_eq {page size l : Int} (hp : 1 ≤ page) (hs : 1 ≤ size) (hm : page * size < 9223372036854775808) :
    bounds page size l = (if (page - 1) * size ≥ l then l else (page - 1) * size,
      if page * size ≥ l then l else page * size) := by
  have h0 : 0 ≤ (page - 1) * size := Int.mul_nonneg (by omega) (by omega)
  have h1 : page * size = (page - 1) * size + size := by rw [Int.sub_mul]; omega
  have h2 : page ≤ page * size := by
    have := Int.mul_le_mul_of_nonneg_left hs (show (0 : Int) ≤ page by omega)
    omega
  unfold bounds
  rw [if_neg (by omega), wrap64_id (i := page - 1) (by omega) (by omega)]
  simp only
  rw [wrap64_id (i := (page - 1) * size) (by omega) (by omega), wrap64_id (by omega) (by omega), ← h1]

theorem slice_page {α : Type} (l : List α) {page size : Int} (hp : 1 ≤ page) (hs : 1 ≤ size)
    (hm : page * size < 9223372036854775808) :
    slice l (bounds page size l.length).1 (bounds page size l.length).2
      = some ((l.drop ((page - 1) * size).toNat).take size.toNat) := by
  have h0 : 0 ≤ (page - 1) * size := Int.mul_nonneg (by omega) (by omega)
  have h1 : page * size = (page - 1) * size + size := by rw [Int.sub_mul]; omega
  rw [bounds_eq hp hs hm, h1]
  generalize (page - 1) * size = st at h0
  unfold slice
  simp only
  by_cases c1 : st ≥ l.length
  · rw [if_pos c1, if_pos (show st + size ≥ l.length by omega), if_pos (by omega)]
    have e1 : l.drop (l.length : Int).toNat = [] := by simp
    have e2 : l.drop st.toNat = [] := by
      apply List.drop_eq_nil_of_le; omega
    rw [e1, e2]
    simp
  · rw [if_neg c1]
    by_cases c2 : st + size ≥ l.length
    · rw [if_pos c2, if_pos (by omega)]
      congr 1
      rw [List.take_of_length_le (by rw [List.length_drop]; omega), List.take_of_length_le (by rw [List.length_drop]; omega)]
    · rw [if_neg c2, if_pos (by omega)]
      congr 2
      omega

end Ckube
