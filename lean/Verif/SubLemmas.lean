import Verif.Ber
/-!
# Views as lists: lemmas about `Subbytes`
-/

namespace Snmp
namespace Subbytes

/-- The bytes a view stands for. -/
def contents (s : Subbytes) : Bytes := (s.data.take s.stop).drop s.start

theorem clampIndex_nat (len n : Nat) : clampIndex len (n : Int) = min n len := by
  unfold clampIndex; simp; omega

theorem copy_eq_contents (s : Subbytes) : s.copy = s.contents := by
  unfold copy getSlice pySlice contents
  simp only [clampIndex_nat, lowBound, highBound]
  by_cases h : s.stop ≤ s.data.length
  · rw [Nat.min_eq_left h]
    by_cases h2 : s.start ≤ s.data.length
    · rw [Nat.min_eq_left h2]
    · rw [List.drop_eq_nil_of_le, List.drop_eq_nil_of_le] <;> simp <;> omega
  · rw [Nat.min_eq_right (by omega : s.data.length ≤ s.stop),
      List.take_of_length_le (Nat.le_refl s.data.length),
      List.take_of_length_le (by omega : s.data.length ≤ s.stop)]
    by_cases h2 : s.start ≤ s.data.length
    · rw [Nat.min_eq_left h2]
    · rw [List.drop_eq_nil_of_le (by omega), List.drop_eq_nil_of_le (by omega)]

theorem contents_length {s : Subbytes} (h : s.WF) : s.contents.length = s.stop - s.start := by
  obtain ⟨h1, h2⟩ := h
  simp only [contents, List.length_drop, List.length_take]; omega

theorem contents_whole (d : Bytes) : (whole d).contents = d := by simp [contents, whole]

theorem whole_WF (d : Bytes) : (whole d).WF := by simp [WF, whole]

theorem whole_copy (d : Bytes) : (whole d).copy = d := by rw [copy_eq_contents, contents_whole]

theorem view_none (s : Subbytes) : s.view none none = s := rfl

theorem contents_cons {s : Subbytes} (hw : s.WF) {b : UInt8} {t : Bytes}
    (h : s.contents = b :: t) :
    s.start < s.stop ∧ s.data[s.start]? = some b ∧
      (Subbytes.mk s.data (s.start + 1) s.stop).WF ∧
      (Subbytes.mk s.data (s.start + 1) s.stop).contents = t := by
  have hl := contents_length hw
  rw [h] at hl
  obtain ⟨h1, h2⟩ := hw
  simp only [List.length_cons] at hl
  have hlt : s.start < s.stop := by omega
  have h3 : s.start < (s.data.take s.stop).length := by simp; omega
  unfold contents at h
  rw [List.drop_eq_getElem_cons h3] at h
  injection h with hb ht
  refine ⟨hlt, ?_, ⟨by dsimp only; omega, h2⟩, ht⟩
  rw [← hb]; simp

theorem dereference_cons {s : Subbytes} (hw : s.WF) {b : UInt8} {t : Bytes}
    (h : s.contents = b :: t) : s.dereference = .ok b := by
  obtain ⟨h1, h2, -, -⟩ := contents_cons hw h
  rw [dereference_eq, if_pos h1, h2]; rfl

theorem dereference_nil {s : Subbytes} (hw : s.WF) (h : s.contents = []) :
    s.dereference = .error .indexError := by
  have hl := contents_length hw
  rw [h] at hl
  rw [dereference_eq, if_neg (by simp at hl; obtain ⟨h1, h2⟩ := hw; omega)]

theorem advance_cons {s : Subbytes} (hw : s.WF) {b : UInt8} {t : Bytes}
    (h : s.contents = b :: t) : s.advance = ⟨s.data, s.start + 1, s.stop⟩ := by
  obtain ⟨h1, -, -, -⟩ := contents_cons hw h
  rw [advance_eq]; congr 1; split <;> omega

/-- The view of the last `n` bytes of `s`. -/
def last (s : Subbytes) (n : Nat) : Subbytes := ⟨s.data, s.stop - n, s.stop⟩

theorem advance_last {s : Subbytes} (hw : s.WF) {b : UInt8} {t : Bytes}
    (h : s.contents = b :: t) :
    s.advance = s.last t.length ∧ (s.last t.length).WF ∧ (s.last t.length).contents = t := by
  obtain ⟨h1, h2, h3, h4⟩ := contents_cons hw h
  have hl := contents_length hw
  rw [h] at hl; simp only [List.length_cons] at hl
  have he : s.last t.length = ⟨s.data, s.start + 1, s.stop⟩ := by
    unfold last; congr 1; omega
  rw [he]
  exact ⟨advance_cons hw h, h3, h4⟩

theorem last_last (s : Subbytes) (m n : Nat) : (s.last m).last n = s.last n := rfl

theorem last_self {s : Subbytes} (hw : s.WF) : s.last s.contents.length = s := by
  have := contents_length hw
  obtain ⟨h1, h2⟩ := hw
  unfold last; rw [this]
  cases s; simp only at *; congr 1; omega

theorem last_WF {s : Subbytes} (hw : s.WF) (n : Nat) : (s.last n).WF := by
  obtain ⟨h1, h2⟩ := hw
  exact ⟨by unfold last; dsimp only; omega, h2⟩

theorem last_suffix {s : Subbytes} (hw : s.WF) {pre t : Bytes} (h : s.contents = pre ++ t) :
    (s.last t.length).contents = t := by
  have hl := contents_length hw
  obtain ⟨h1, h2⟩ := hw
  unfold contents at *
  unfold last; dsimp only
  rw [h] at hl; simp only [List.length_append] at hl
  have : (s.data.take s.stop).drop (s.stop - t.length) =
      ((s.data.take s.stop).drop s.start).drop pre.length := by
    rw [List.drop_drop]; congr 1; omega
  rw [this, h]; simp

theorem len_WF {s : Subbytes} (hw : s.WF) : s.len = .ok s.contents.length := by
  unfold len; rw [contents_length hw, if_neg (by have := hw.1; omega)]

theorem bool_WF {s : Subbytes} (hw : s.WF) : s.bool = !s.contents.isEmpty := by
  have hl := contents_length hw
  unfold bool
  cases hc : s.contents with
  | nil => rw [hc] at hl; simp at hl; simp; omega
  | cons b t => rw [hc] at hl; simp at hl; simp; omega

/-- `split(n)` for a non-negative index. -/
theorem split_nat {s : Subbytes} (hw : s.WF) (n : Nat) :
    s.split (n : Int) =
      (⟨s.data, s.start, s.start + min n s.contents.length⟩, s.last (s.contents.length - n)) := by
  have hl := contents_length hw
  obtain ⟨h1, h2⟩ := hw
  unfold split view lowBound highBound translate last
  simp only [↓reduceIte]
  rw [if_neg (by omega : ¬ ((n : Int) < 0))]
  rw [hl]
  refine Prod.ext ?_ ?_
  · dsimp only; congr 1; split <;> omega
  · dsimp only; congr 1; split <;> omega

theorem prefix_contents {s : Subbytes} (hw : s.WF) (n : Nat) (hn : n ≤ s.contents.length) :
    (Subbytes.mk s.data s.start (s.start + n)).WF ∧
    (Subbytes.mk s.data s.start (s.start + n)).contents = s.contents.take n := by
  have hl := contents_length hw
  obtain ⟨h1, h2⟩ := hw
  refine ⟨⟨by dsimp only; omega, by dsimp only; omega⟩, ?_⟩
  unfold contents; dsimp only
  rw [List.take_drop, List.take_take]
  congr 2; omega

end Subbytes

/-- The argument is bytes, or a view lying inside its wrapped bytes. -/
def Asn1Data.Valid (d : Asn1Data) : Prop := d.toSub.WF

theorem Asn1Data.copy_eq (d : Asn1Data) : d.copy = d.toSub.contents := by
  cases d with
  | bytes b => exact (Subbytes.contents_whole b).symm
  | sub s => exact Subbytes.copy_eq_contents s

theorem Asn1Data.toSub_WF_bytes (b : Bytes) : (Asn1Data.bytes b).toSub.WF := Subbytes.whole_WF b

theorem Asn1Data.valid_bytes (b : Bytes) : (Asn1Data.bytes b).Valid := Subbytes.whole_WF b

theorem Asn1Data.valid_sub {s : Subbytes} (h : s.WF) : (Asn1Data.sub s).Valid := h

theorem Asn1Data.len_valid {d : Asn1Data} (h : d.Valid) : d.len = .ok d.copy.length := by
  cases d with
  | bytes b => rfl
  | sub s => exact (Subbytes.len_WF h).trans (by rw [Asn1Data.copy, Subbytes.copy_eq_contents]; rfl)

theorem Asn1Data.bool_valid {d : Asn1Data} (h : d.Valid) : d.bool = !d.copy.isEmpty := by
  cases d with
  | bytes b => rfl
  | sub s => exact (Subbytes.bool_WF h).trans (by rw [Asn1Data.copy, Subbytes.copy_eq_contents]; rfl)

end Snmp
