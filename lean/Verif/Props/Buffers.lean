import Verif.Model.Buffers
import Verif.Spec.PyList
import Verif.Proofs.Prim
import Mathlib.Data.List.Basic
import Mathlib.Tactic.Ring

/-!
# C35, C36, C37: buffers, views and DataViews
-/

namespace V8.Props
open V8 V8.Spec

/-! ## C35 -/

/-- One requested resize: the buffer afterwards and whether it was accepted. -/
def resizeStep (b : ABuf) (n : Int) : ABuf × Bool :=
  match b.resize n with
  | .ok b' => (b', true)
  | .error _ => (b, false)

/-- The sizes a buffer may take. -/
def Allowed (b : ABuf) (n : Int) : Prop := b.resizable = true ∧ 0 ≤ n ∧ n ≤ b.max

instance (b : ABuf) (n : Int) : Decidable (Allowed b n) := by unfold Allowed; infer_instance

theorem resize_ok {b b' : ABuf} {n : Int} (h : b.resize n = .ok b') :
    Allowed b n ∧ b'.max = b.max ∧ b'.resizable = b.resizable ∧ (b'.data.length : Int) = n ∧
    (∀ i, i < b'.data.length → i < b.data.length → b'.data[i]? = b.data[i]?) ∧
    (∀ i, i < b'.data.length → b.data.length ≤ i → b'.data[i]? = some 0) := by
  unfold ABuf.resize at h
  split at h
  · simp at h
  · rename_i hr
    split at h
    · simp at h
    · rename_i hn
      have hal : Allowed b n := by
        refine ⟨by simpa using hr, ?_⟩
        simpa using hn
      have h0 : 0 ≤ n := hal.2.1
      split at h
      · rename_i hgt
        simp only [Except.ok.injEq] at h
        subst h
        refine ⟨hal, rfl, rfl, ?_, ?_, ?_⟩
        · simp; omega
        · intro i _ hi
          simp only
          rw [List.getElem?_append_left hi]
        · intro i hi hle
          simp only [List.length_append, List.length_replicate] at hi ⊢
          rw [List.getElem?_append_right hle, List.getElem?_replicate, if_pos (by omega)]
      · rename_i hle
        simp only [Except.ok.injEq] at h
        subst h
        refine ⟨hal, rfl, rfl, ?_, ?_, ?_⟩
        · simp; omega
        · intro i hi _
          simp only [List.length_take] at hi ⊢
          rw [List.getElem?_take_of_lt (by omega)]
        · intro i hi hle'
          simp only [List.length_take] at hi
          omega

/-- C35: a resize is accepted exactly when the buffer is resizable and the size is between 0 and the
maximum; a refused one changes nothing. -/
theorem C35_accepted_iff (b : ABuf) (n : Int) :
    ((resizeStep b n).2 = true ↔ Allowed b n) ∧ ((resizeStep b n).2 = false → (resizeStep b n).1 = b) := by
  unfold resizeStep
  cases h : b.resize n with
  | ok b' => simpa using (resize_ok h).1
  | error e =>
    simp only [Bool.false_eq_true, false_iff, true_implies, and_true]
    rintro ⟨h1, h2, h3⟩
    unfold ABuf.resize at h
    rw [if_neg (by simp [h1]), if_neg (by simp [h2, h3])] at h
    split at h <;> simp at h

/-- C35: after any history of requested sizes the maximum and resizability are as before, the length
is the last allowed size (never above the maximum), a byte keeps its original value while no allowed
size cut it off, and every other byte is zero. -/
theorem C35_history (b : ABuf) (hb : b.data.length ≤ b.max) (sizes : List Int) :
    let b' := (runHist resizeStep b sizes).1
    let accepted := sizes.filter (fun n => decide (Allowed b n))
    b'.max = b.max ∧ b'.resizable = b.resizable ∧ b'.data.length ≤ b'.max ∧
    (accepted = [] → b' = b) ∧
    (∀ n, accepted.getLast? = some n → (b'.data.length : Int) = n) ∧
    (∀ i, i < b'.data.length →
      ((i < b.data.length ∧ ∀ n ∈ accepted, (i : Int) < n) → b'.data[i]? = b.data[i]?) ∧
      ((b.data.length ≤ i ∨ ∃ n ∈ accepted, n ≤ (i : Int)) → b'.data[i]? = some 0)) := by
  induction sizes generalizing b with
  | nil =>
    simp only [runHist, List.filter_nil]
    refine ⟨trivial, trivial, hb, by simp, by simp, ?_⟩
    intro i hi
    refine ⟨by simp, ?_⟩
    rintro (h | ⟨n, hn, _⟩)
    · omega
    · simp at hn
  | cons n sizes ih =>
    simp only [runHist]
    by_cases hal : Allowed b n
    · have hacc := ((C35_accepted_iff b n).1).2 hal
      unfold resizeStep at hacc
      cases h : b.resize n with
      | error e => rw [h] at hacc; simp at hacc
      | ok b1 =>
        have hstep : (resizeStep b n).1 = b1 := by simp [resizeStep, h]
        rw [hstep]
        obtain ⟨_, hm, hr, hl, hk, hz⟩ := resize_ok h
        have hb1 : b1.data.length ≤ b1.max := by
          have := hal.2.2
          omega
        obtain ⟨i1, i2, i3, i4, i5, i6⟩ := ih b1 hb1
        have hfil : sizes.filter (fun n => decide (Allowed b1 n)) = sizes.filter (fun n => decide (Allowed b n)) := by
          apply List.filter_congr
          intro x _
          rw [decide_eq_decide]
          unfold Allowed
          rw [hm, hr]
        rw [hfil] at i4 i5 i6
        rw [List.filter_cons_of_pos (by simpa using hal)]
        refine ⟨by rw [i1, hm], by rw [i2, hr], i3, by simp, ?_, ?_⟩
        · intro m hmm
          cases hs : sizes.filter (fun n => decide (Allowed b n)) with
          | nil =>
            rw [hs] at hmm
            simp at hmm
            rw [i4 hs, hl, hmm]
          | cons x t =>
            rw [hs, List.getLast?_cons_cons] at hmm
            exact i5 m (by rw [hs]; exact hmm)
        · intro i hi
          constructor
          · rintro ⟨hi0, hall⟩
            have hin : (i : Int) < n := hall n List.mem_cons_self
            rw [(i6 i hi).1 ⟨by omega, fun m hm' => hall m (List.mem_cons_of_mem _ hm')⟩]
            exact hk i (by omega) hi0
          · intro hor
            by_cases hin : (i : Int) < n
            · by_cases hcut : ∃ m ∈ sizes.filter (fun n => decide (Allowed b n)), m ≤ (i : Int)
              · exact (i6 i hi).2 (.inr hcut)
              · rw [(i6 i hi).1 ⟨by omega, fun m hm' => by
                  by_contra hc; exact hcut ⟨m, hm', by omega⟩⟩]
                apply hz i (by omega)
                rcases hor with h | ⟨m, hm', hmi⟩
                · exact h
                · rcases List.mem_cons.1 hm' with rfl | hm'
                  · omega
                  · exact absurd ⟨m, hm', hmi⟩ hcut
            · exact (i6 i hi).2 (.inl (by omega))
    · have hrej : (resizeStep b n).2 = false := by
        by_contra hc
        exact hal ((C35_accepted_iff b n).1.1 (by simpa using hc))
      rw [(C35_accepted_iff b n).2 hrej, List.filter_cons_of_neg (by simpa using hal)]
      exact ih b hb

/-- C35: every buffer that can be constructed starts within its maximum, and is resizable exactly
when asked to be (by flag or by giving a maximum). -/
theorem C35_constructed (data : Bytes) (max : Option Int) (resizable readonly : Bool) (b : ABuf)
    (h : ABuf.mk' data max resizable readonly = .ok b) :
    b.data = data ∧ b.data.length ≤ b.max ∧ (b.resizable = true ↔ (resizable = true ∨ max ≠ none)) ∧
    (b.resizable = false → b.max = data.length) ∧ ¬ (b.resizable = true ∧ readonly = true) := by
  unfold ABuf.mk' at h
  simp only at h
  split at h
  · simp at h
  · rename_i h1
    split at h
    · simp at h
    · rename_i h2
      simp only [Except.ok.injEq] at h
      subst h
      cases max with
      | none => cases resizable <;> cases readonly <;> simp_all
      | some m => cases resizable <;> cases readonly <;> simp_all <;> omega

/-- C35: a fixed-length buffer never changes. -/
theorem C35_fixed (b : ABuf) (h : b.resizable = false) (sizes : List Int) :
    (runHist resizeStep b sizes).1 = b := by
  induction sizes with
  | nil => rfl
  | cons n sizes ih =>
    simp only [runHist]
    have : (resizeStep b n).1 = b := by
      unfold resizeStep ABuf.resize
      rw [if_pos h]
    rw [this, ih]

example : runHist resizeStep ⟨[1, 2, 3], 5, true⟩ [5, 6, 2, -1, 4]
    = (⟨[1, 2, 0, 0], 5, true⟩, [true, false, true, false, true]) := by decide
example : ABuf.mk' [1, 2] (some 1) false false = .error .jsArrayBufferError := by decide

/-! ## C36 -/

theorem size_pos (t : ViewTag) : 0 < t.size := by cases t <;> decide

/-- The bytes a view denotes: `off` and `len` count bytes. -/
def window (buf : Bytes) (off len : Nat) : Bytes := (buf.drop off).take len

/-- C36: in range, the exposed bytes are those of the buffer from the view's offset on, wholly inside
the buffer; out of range there are none. The number of bytes is a whole number of elements. -/
theorem C36_region_inside (v : View) (buf : Bytes) :
    (v.isInRange buf = true → ∃ pre post, buf = pre ++ v.bytes buf ++ post ∧
      pre.length = v.itemOffset * v.tag.size) ∧
    (v.isInRange buf = false → v.bytes buf = []) ∧
    v.tag.size ∣ (v.bytes buf).length ∧
    v.byteLength buf = (v.bytes buf).length ∧
    v.byteOffset buf + v.byteLength buf ≤ buf.length := by
  have split3 : ∀ off len : Nat, off ≤ buf.length →
      ∃ pre post, buf = pre ++ (buf.drop off).take len ++ post ∧ pre.length = off := by
    intro off len h
    refine ⟨buf.take off, (buf.drop off).drop len, ?_, by simp; omega⟩
    rw [List.append_assoc, List.take_append_drop, List.take_append_drop]
  have hs := size_pos v.tag
  unfold View.byteLength View.byteOffset View.isInRange View.bytes View.region
  simp only
  cases v.itemLength with
  | some n =>
    simp only
    by_cases h : v.itemOffset * v.tag.size + n * v.tag.size > buf.length
    · simp only [if_pos h]
      simp
    · simp only [if_neg h]
      have hle : v.itemOffset * v.tag.size ≤ buf.length := by omega
      simp only [decide_eq_true hle, if_true]
      refine ⟨fun _ => split3 _ _ hle, by simp, ?_, trivial, ?_⟩
      · rw [List.length_take, List.length_drop, Nat.min_eq_left (by omega)]
        exact Nat.dvd_mul_left _ _
      · rw [List.length_take, List.length_drop]; omega
  | none =>
    simp only
    by_cases h : v.itemOffset * v.tag.size > buf.length
    · simp only [if_pos h]
      rw [Nat.sub_eq_zero_of_le (by omega)]
      simp
    · simp only [if_neg h]
      have hle : v.itemOffset * v.tag.size ≤ buf.length := by omega
      simp only [decide_eq_true hle, if_true]
      have hd := Nat.div_mul_le_self (buf.length - v.itemOffset * v.tag.size) v.tag.size
      refine ⟨fun _ => split3 _ _ hle, by simp, ?_, trivial, ?_⟩
      · rw [List.length_take, List.length_drop, Nat.min_eq_left hd]
        exact Nat.dvd_mul_left _ _
      · rw [List.length_take, List.length_drop]; omega

/-- C36: a view with a length is in range exactly when its whole extent is inside the buffer, and
then exposes exactly that extent. -/
theorem C36_fixed_length (v : View) (n : Nat) (hv : v.itemLength = some n) (buf : Bytes) :
    (v.isInRange buf = true ↔ v.itemOffset * v.tag.size + n * v.tag.size ≤ buf.length) ∧
    (v.isInRange buf = true → v.byteLength buf = n * v.tag.size) := by
  unfold View.byteLength View.isInRange View.bytes View.region
  simp only [hv]
  by_cases h : v.itemOffset * v.tag.size + n * v.tag.size > buf.length
  · simp only [if_pos h]
    refine ⟨by simp; omega, by simp⟩
  · simp only [if_neg h]
    refine ⟨by simp; omega, ?_⟩
    intro _
    rw [List.length_take, List.length_drop]
    omega

/-- C36: a view without a length is in range exactly when it starts inside the buffer (or at its
end), and then follows the buffer: it exposes the largest whole number of elements that fit. -/
theorem C36_length_tracking (v : View) (hv : v.itemLength = none) (buf : Bytes) :
    (v.isInRange buf = true ↔ v.itemOffset * v.tag.size ≤ buf.length) ∧
    (v.isInRange buf = true →
      v.itemOffset * v.tag.size + v.byteLength buf ≤ buf.length ∧
      buf.length < v.itemOffset * v.tag.size + v.byteLength buf + v.tag.size) := by
  have hs := size_pos v.tag
  unfold View.byteLength View.isInRange View.bytes View.region
  simp only [hv]
  by_cases h : v.itemOffset * v.tag.size > buf.length
  · simp only [if_pos h]
    refine ⟨by simp; omega, by simp⟩
  · simp only [if_neg h]
    refine ⟨by simp, ?_⟩
    intro _
    have hd := Nat.div_mul_le_self (buf.length - v.itemOffset * v.tag.size) v.tag.size
    have hm := Nat.mod_lt (buf.length - v.itemOffset * v.tag.size) hs
    have hdm := Nat.div_add_mod (buf.length - v.itemOffset * v.tag.size) v.tag.size
    rw [Nat.mul_comm] at hdm
    rw [List.length_take, List.length_drop, Nat.min_eq_left hd]
    omega

/-- C36 over a history of resizes: whatever sizes the buffer goes through, the view's region is a
window of the buffer's current bytes, and for a length-tracking view it covers all but a part element
of what follows its offset, if the offset is still inside. -/
theorem C36_after_resizes (b : ABuf) (sizes : List Int) (v : View) :
    let b' := (runHist resizeStep b sizes).1
    v.byteOffset b'.exposed + v.byteLength b'.exposed ≤ b'.exposed.length ∧
    v.bytes b'.exposed = window b'.exposed (v.byteOffset b'.exposed) (v.byteLength b'.exposed) ∧
    (v.itemLength = none → v.itemOffset * v.tag.size ≤ b'.exposed.length →
      b'.exposed.length < v.itemOffset * v.tag.size + v.byteLength b'.exposed + v.tag.size) := by
  simp only
  generalize (runHist resizeStep b sizes).1.exposed = buf
  obtain ⟨h1, h2, _, h4, h5⟩ := C36_region_inside v buf
  refine ⟨h5, ?_, ?_⟩
  · cases hr : v.isInRange buf with
    | false => rw [h4, h2 hr]; simp [window]
    | true =>
      obtain ⟨pre, post, hb, hp⟩ := h1 hr
      have ho : v.byteOffset buf = pre.length := by simp [View.byteOffset, hr, hp]
      rw [ho, h4]
      generalize v.bytes buf = bs at hb
      subst hb
      simp [window]
  · intro hv hle
    have := C36_length_tracking v hv buf
    exact (this.2 (this.1.2 hle)).2

/-- What JavaScript demands of a new view over a buffer of `n` bytes (`fixed`: the buffer cannot be
resized): whole elements, within the buffer. -/
def ValidView (t : ViewTag) (n : Nat) (fixed : Bool) (off : Int) (len : Option Int) : Prop :=
  0 ≤ off ∧ (t.size : Int) ∣ off ∧ off ≤ n ∧
  match len with
  | some l => 0 ≤ l ∧ (t.size : Int) ∣ l ∧ off + l ≤ n
  | none => fixed = true → t.size ∣ n

theorem mk'_ok {t : ViewTag} {o : Int} {l : Option Int} {v : View} (h : View.mk' t o l = .ok v) :
    0 ≤ o ∧ v.tag = t ∧ (v.itemOffset : Int) = o ∧
    (∀ n, l = some n → 0 ≤ n ∧ ∃ k : Nat, v.itemLength = some k ∧ (k : Int) = n) ∧
    (l = none → v.itemLength = none) := by
  unfold View.mk' at h
  split at h
  · simp at h
  · cases l with
    | none =>
      simp only [Except.ok.injEq] at h
      subst h
      refine ⟨by omega, rfl, by simp; omega, by simp, by simp⟩
    | some n =>
      simp only at h
      split at h
      · simp at h
      · simp only [Except.ok.injEq] at h
        subst h
        refine ⟨by omega, rfl, by simp; omega, ?_, by simp⟩
        intro m hm
        simp only [Option.some.injEq] at hm
        subst hm
        exact ⟨by omega, _, rfl, by simp; omega⟩

/-- C36: `create_view` succeeds exactly on what JavaScript allows, and the new view is in range and
has the requested offset and length. -/
theorem C36_create (t : ViewTag) (resizable : Bool) (buf : Bytes) (off : Int) (len : Option Int) :
    ((∃ v, View.create t resizable (some buf) off len = .ok v) ↔ ValidView t buf.length (!resizable) off len) ∧
    (∀ v, View.create t resizable (some buf) off len = .ok v →
      v.tag = t ∧ v.isInRange buf = true ∧ (v.byteOffset buf : Int) = off ∧
      (∀ l, len = some l → (v.byteLength buf : Int) = l)) := by
  have hs : (0 : Int) < t.size := by exact_mod_cast size_pos t
  have bounds : ∀ v, View.create t resizable (some buf) off len = .ok v →
      ValidView t buf.length (!resizable) off len ∧ v.tag = t ∧ v.isInRange buf = true ∧
      (v.byteOffset buf : Int) = off ∧ (∀ l, len = some l → (v.byteLength buf : Int) = l) := by
    intro v h
    unfold View.create at h
    simp only at h
    split at h
    · simp at h
    rename_i h1
    split at h
    · simp at h
    rename_i h2
    cases hm : View.mk' t (off / t.size) (len.map (· / (t.size : Int))) with
    | error e => rw [hm] at h; simp at h
    | ok w =>
      rw [hm] at h
      simp only at h
      obtain ⟨m1, m2, m3, m4, m5⟩ := mk'_ok hm
      have hdo : (t.size : Int) ∣ off := Int.dvd_of_emod_eq_zero (by simpa using h1)
      have hoff : ((w.itemOffset * w.tag.size : Nat) : Int) = off := by
        push_cast
        rw [m3, m2, Int.ediv_mul_cancel hdo]
      unfold View.checkBounds at h
      split at h
      · simp at h
      rename_i h3
      split at h
      · simp at h
      rename_i h4
      have h0 : 0 ≤ off := by omega
      cases len with
      | none =>
        simp only [Except.ok.injEq] at h
        subst h
        have hil := m5 rfl
        obtain ⟨t1, _⟩ := C36_length_tracking w hil buf
        have hle : w.itemOffset * w.tag.size ≤ buf.length := by
          by_contra hc
          have hnr : w.isInRange buf = false := by
            rw [← Bool.not_eq_true, t1]; exact hc
          simp only [View.byteOffset, hnr] at h4
          simp at h4
          omega
        have hir := t1.2 hle
        refine ⟨⟨h0, hdo, by omega, ?_⟩, m2, hir, ?_, by simp⟩
        · intro hf
          simp only [View.isLengthTracking, hil, m2] at h3
          simp only [Bool.not_eq_true'] at hf
          subst hf
          simp at h3
          exact Nat.dvd_of_mod_eq_zero h3
        · simp only [View.byteOffset, hir, if_true]; exact hoff
      | some l =>
        simp only at h
        split at h
        · simp at h
        rename_i h5
        simp only [Except.ok.injEq] at h
        subst h
        have hdl : (t.size : Int) ∣ l := by
          simp at h2
          exact Int.dvd_of_emod_eq_zero h2
        obtain ⟨hl0, k, hk, hkl⟩ := m4 (l / t.size) rfl
        have hlen : ((k * w.tag.size : Nat) : Int) = l := by
          push_cast
          rw [hkl, m2, Int.ediv_mul_cancel hdl]
        obtain ⟨t1, t2⟩ := C36_fixed_length w k hk buf
        have hl0' : 0 ≤ l := by omega
        have hir : w.isInRange buf = true := by
          by_contra hc
          have hnr : w.isInRange buf = false := by simpa using hc
          have he := (C36_region_inside w buf).2.1 hnr
          have hbl : w.byteLength buf = 0 := by simp [View.byteLength, he]
          simp only [View.byteOffset, hnr] at h4
          simp at h4
          rw [hbl] at h5
          rw [t1] at hc
          apply hc
          omega
        have hin := t1.1 hir
        refine ⟨⟨h0, hdo, by omega, hl0', hdl, by omega⟩, m2, hir, ?_, ?_⟩
        · simp only [View.byteOffset, hir, if_true]; exact hoff
        · rintro _ ⟨⟩
          rw [t2 hir]; exact hlen
  refine ⟨⟨fun ⟨v, hv⟩ => (bounds v hv).1, ?_⟩, fun v hv => (bounds v hv).2⟩
  rintro ⟨h0, hdo, hle, hrest⟩
  unfold View.create
  simp only
  rw [if_neg (by simpa using Int.emod_eq_zero_of_dvd hdo)]
  cases len with
  | none =>
    simp only at hrest
    rw [if_neg (by simp)]
    have hoff : (((off / t.size).toNat * t.size : Nat) : Int) = off := by
      push_cast
      rw [Int.toNat_of_nonneg (Int.ediv_nonneg h0 (by omega)), Int.ediv_mul_cancel hdo]
    have hmk : View.mk' t (off / t.size) (Option.map (· / (t.size : Int)) none) = .ok ⟨t, (off / t.size).toNat, none⟩ := by
      unfold View.mk'
      rw [if_neg (by have := Int.ediv_nonneg h0 (by omega : (0 : Int) ≤ t.size); omega)]
      rfl
    rw [hmk]
    simp only
    have hir : (⟨t, (off / t.size).toNat, none⟩ : View).isInRange buf = true :=
      (C36_length_tracking ⟨t, (off / t.size).toNat, none⟩ rfl buf).1.2 (by simp only; omega)
    unfold View.checkBounds
    rw [if_neg, if_neg]
    · exact ⟨_, rfl⟩
    · simp only [View.byteOffset, hir, if_true]; omega
    · simp only [View.isLengthTracking]
      cases resizable with
      | true => simp
      | false =>
        have := Nat.mod_eq_zero_of_dvd (hrest rfl)
        simp [this]
  | some l =>
    simp only at hrest
    obtain ⟨hl0, hdl, hb⟩ := hrest
    rw [if_neg (by simpa using Int.emod_eq_zero_of_dvd hdl)]
    have hoff : (((off / t.size).toNat * t.size : Nat) : Int) = off := by
      push_cast
      rw [Int.toNat_of_nonneg (Int.ediv_nonneg h0 (by omega)), Int.ediv_mul_cancel hdo]
    have hlen : (((l / t.size).toNat * t.size : Nat) : Int) = l := by
      push_cast
      rw [Int.toNat_of_nonneg (Int.ediv_nonneg hl0 (by omega)), Int.ediv_mul_cancel hdl]
    have hmk : View.mk' t (off / t.size) (Option.map (· / (t.size : Int)) (some l))
        = .ok ⟨t, (off / t.size).toNat, some (l / t.size).toNat⟩ := by
      unfold View.mk'
      rw [if_neg (by have := Int.ediv_nonneg h0 (by omega : (0 : Int) ≤ t.size); omega)]
      simp only [Option.map_some]
      rw [if_neg (by have := Int.ediv_nonneg hl0 (by omega : (0 : Int) ≤ t.size); omega)]
    rw [hmk]
    simp only
    obtain ⟨t1, t2⟩ := C36_fixed_length ⟨t, (off / t.size).toNat, some (l / t.size).toNat⟩ _ rfl buf
    have hir := t1.2 (by simp only; omega)
    unfold View.checkBounds
    rw [if_neg (by simp), if_neg]
    · simp only
      rw [if_neg]
      · exact ⟨_, rfl⟩
      · rw [t2 hir]; simp only; omega
    · simp only [View.byteOffset, hir, if_true]; omega

example : View.create .uint32 false (some (List.replicate 16 0)) 4 (some 8) = .ok ⟨.uint32, 1, some 2⟩ := by
  decide
example : View.create .uint32 false (some (List.replicate 15 0)) 4 none = .error .jsArrayBufferError := by
  decide
example : (⟨.uint16, 1, none⟩ : View).bytes [1, 2, 3, 4, 5] = [3, 4] := by decide

/-! ## C37 -/

theorem dvBits_bytes (little : Bool) (k bits : Nat) (h : bits < 256 ^ k) :
    dvBits little (dvBytes little k bits) = bits := by
  have := fromLE_toLE k bits h
  cases little <;> simp [dvBits, dvBytes, this]

/-- The integers an accessor accepts. -/
def DVType.Accepts : DVType → Int → Prop
  | .int8, n => -2 ^ 7 ≤ n ∧ n < 2 ^ 7
  | .int16, n => -2 ^ 15 ≤ n ∧ n < 2 ^ 15
  | .int32, n => -2 ^ 31 ≤ n ∧ n < 2 ^ 31
  | .bigint64, n => -2 ^ 63 ≤ n ∧ n < 2 ^ 63
  | .uint8, n => 0 ≤ n ∧ n < 2 ^ 8
  | .uint16, n => 0 ≤ n ∧ n < 2 ^ 16
  | .uint32, n => 0 ≤ n ∧ n < 2 ^ 32
  | .biguint64, n => 0 ≤ n ∧ n < 2 ^ 64
  | _, _ => False

theorem packSigned_unpack {k : Nat} (hk : 0 < k) {n : Int} {b : Nat} (h : packSigned k n = .ok b) :
    unpackSigned k b = n ∧ b < 256 ^ k := by
  unfold packSigned at h
  split at h
  · rename_i hr
    simp only [Except.ok.injEq] at h
    have hpow : (2 : Int) ^ (8 * k) = 2 * 2 ^ (8 * k - 1) := by
      conv => lhs; rw [show 8 * k = (8 * k - 1) + 1 by omega, Int.pow_succ]
      ring
    have hp : (0 : Int) < 2 ^ (8 * k - 1) := Int.pow_pos (by decide)
    have h256 : (256 : Nat) ^ k = 2 ^ (8 * k) := by
      rw [show (256 : Nat) = 2 ^ 8 by decide, ← Nat.pow_mul]
    have hc1 : ((2 ^ (8 * k - 1) : Nat) : Int) = 2 ^ (8 * k - 1) := by push_cast; rfl
    have hc2 : ((2 ^ (8 * k) : Nat) : Int) = 2 ^ (8 * k) := by push_cast; rfl
    by_cases hn : 0 ≤ n
    · rw [Int.emod_eq_of_lt hn (by omega)] at h
      unfold unpackSigned
      constructor
      · rw [if_pos (by omega)]; omega
      · rw [h256]; omega
    · have hm : n % 2 ^ (8 * k) = n + 2 ^ (8 * k) := by
        rw [← Int.add_emod_right, Int.emod_eq_of_lt (by omega) (by omega)]
      rw [hm] at h
      unfold unpackSigned
      constructor
      · rw [if_neg (by omega)]; omega
      · rw [h256]; omega
  · simp at h

theorem packUnsigned_unpack {k : Nat} {n : Int} {b : Nat} (h : packUnsigned k n = .ok b) :
    (b : Int) = n ∧ b < 256 ^ k := by
  unfold packUnsigned at h
  split at h
  · rename_i hr
    simp only [Except.ok.injEq] at h
    have h256 : (256 : Nat) ^ k = 2 ^ (8 * k) := by
      rw [show (256 : Nat) = 2 ^ 8 by decide, ← Nat.pow_mul]
    have hc2 : ((2 ^ (8 * k) : Nat) : Int) = 2 ^ (8 * k) := by push_cast; rfl
    rw [h256]
    omega
  · simp at h

theorem overwrite_length (buf : Bytes) (off : Nat) (bs : Bytes) (h : off + bs.length ≤ buf.length) :
    (overwrite buf off bs).length = buf.length := by
  simp [overwrite]; omega

theorem overwrite_outside (buf : Bytes) (off : Nat) (bs : Bytes) (h : off + bs.length ≤ buf.length)
    (i : Nat) (hi : i < off ∨ off + bs.length ≤ i) : (overwrite buf off bs)[i]? = buf[i]? := by
  unfold overwrite
  rcases hi with hi | hi
  · rw [List.append_assoc, List.getElem?_append_left (by simp; omega), List.getElem?_take_of_lt hi]
  · rw [List.getElem?_append_right (by simp; omega), List.getElem?_drop]
    congr 1
    simp; omega

theorem overwrite_inside (buf : Bytes) (off : Nat) (bs : Bytes) (h : off + bs.length ≤ buf.length) :
    ((overwrite buf off bs).drop off).take bs.length = bs := by
  unfold overwrite
  rw [List.append_assoc, List.drop_append_of_le_length (by simp; omega)]
  rw [List.drop_of_length_le (by simp), List.nil_append, List.take_left']
  rfl

theorem dvBytes_length (little : Bool) (k bits : Nat) : (dvBytes little k bits).length = k := by
  cases little <;> simp [dvBytes]

theorem dvSet_cases (c : FloatConv) (t : DVType) (ro : Bool) (buf : Bytes) (off : Int) (v : DVVal)
    (little : Bool) :
    ((off < 0 ∨ off + t.size > buf.length) → dvSet c t ro buf off v little = (buf, some .jsArrayBufferError)) ∧
    (¬ (off < 0 ∨ off + t.size > buf.length) → ro = true → dvSet c t ro buf off v little = (buf, some .typeError)) ∧
    (¬ (off < 0 ∨ off + t.size > buf.length) → ro = false → ∀ bits, dvPack c t v = .ok bits →
      dvSet c t ro buf off v little = (overwrite buf off.toNat (dvBytes little t.size bits), none)) ∧
    (¬ (off < 0 ∨ off + t.size > buf.length) → ro = false → ∀ e, dvPack c t v = .error e →
      dvSet c t ro buf off v little = (overwrite buf off.toNat (List.replicate t.size 0), some e)) := by
  refine ⟨?_, ?_, ?_, ?_⟩
  · intro h; unfold dvSet; rw [if_pos h]
  · intro h hr; unfold dvSet; rw [if_neg h, if_pos hr]
  · intro h hr b hb; unfold dvSet; rw [if_neg h, if_neg (by simp [hr]), hb]
  · intro h hr b hb; unfold dvSet; rw [if_neg h, if_neg (by simp [hr]), hb]

/-- C37: whatever happens, `set_*` keeps the length and touches no byte outside its target. -/
theorem C37_touches_only_target (c : FloatConv) (t : DVType) (ro : Bool) (buf : Bytes) (off : Int)
    (v : DVVal) (little : Bool) :
    (dvSet c t ro buf off v little).1.length = buf.length ∧
    ∀ i : Nat, ((i : Int) < off ∨ off + t.size ≤ i) →
      (dvSet c t ro buf off v little).1[i]? = buf[i]? := by
  obtain ⟨h1, h2, h3, h4⟩ := dvSet_cases c t ro buf off v little
  by_cases hb : off < 0 ∨ off + t.size > buf.length
  · rw [h1 hb]; exact ⟨rfl, fun _ _ => rfl⟩
  · have hb' := hb
    cases ro with
    | true => rw [h2 hb rfl]; exact ⟨rfl, fun _ _ => rfl⟩
    | false =>
      cases hp : dvPack c t v with
      | ok bits =>
        rw [h3 hb rfl bits hp]
        have hl := dvBytes_length little t.size bits
        exact ⟨overwrite_length _ _ _ (by omega), fun i hi => overwrite_outside _ _ _ (by omega) i (by omega)⟩
      | error e =>
        rw [h4 hb rfl e hp]
        have hl : (List.replicate t.size (0 : UInt8)).length = t.size := by simp
        exact ⟨overwrite_length _ _ _ (by omega), fun i hi => overwrite_outside _ _ _ (by omega) i (by omega)⟩

theorem set_get (c : FloatConv) (t : DVType) (buf : Bytes) (off : Int) (v : DVVal) (little : Bool)
    (buf' : Bytes) (h : dvSet c t false buf off v little = (buf', none)) :
    ∃ bits, dvPack c t v = .ok bits ∧
      (bits < 256 ^ t.size → dvGet c t buf' off little = .ok (dvUnpack c t bits)) := by
  obtain ⟨h1, h2, h3, h4⟩ := dvSet_cases c t false buf off v little
  by_cases hb : off < 0 ∨ off + t.size > buf.length
  · rw [h1 hb] at h; simp at h
  · cases hp : dvPack c t v with
    | error e => rw [h4 hb rfl e hp] at h; simp at h
    | ok bits =>
      refine ⟨bits, rfl, ?_⟩
      intro hlt
      rw [h3 hb rfl bits hp] at h
      simp only [Prod.mk.injEq, and_true] at h
      have hl := dvBytes_length little t.size bits
      have hol := overwrite_length buf off.toNat (dvBytes little t.size bits) (by omega)
      have hin := overwrite_inside buf off.toNat (dvBytes little t.size bits) (by omega)
      rw [h] at hol hin
      unfold dvGet
      rw [if_neg (by rw [hol]; exact hb)]
      rw [hl] at hin
      rw [hin, dvBits_bytes little t.size bits hlt]

theorem dvPack_int (c : FloatConv) (t : DVType) (n : Int) (b : Nat) (ht : t ≠ .float16 ∧ t ≠ .float32 ∧ t ≠ .float64)
    (h : dvPack c t (.int n) = .ok b) :
    dvUnpack c t b = .int n ∧ b < 256 ^ t.size ∧ DVType.Accepts t n := by
  have hs : ∀ k, 0 < k → packSigned k n = .ok b →
      (-(2 ^ (8 * k - 1)) ≤ n ∧ n < 2 ^ (8 * k - 1)) := by
    intro k _ hh
    unfold packSigned at hh
    split at hh
    · assumption
    · simp at hh
  have hu : ∀ k, packUnsigned k n = .ok b → (0 ≤ n ∧ n < 2 ^ (8 * k)) := by
    intro k hh
    unfold packUnsigned at hh
    split at hh
    · assumption
    · simp at hh
  cases t <;> simp only [dvPack] at h
  case float16 => simp at ht
  case float32 => simp at ht
  case float64 => simp at ht
  case bigint64 =>
    obtain ⟨a, b'⟩ := packSigned_unpack (by decide) h
    exact ⟨by simp only [dvUnpack, a], b', hs 8 (by decide) h⟩
  case int32 =>
    obtain ⟨a, b'⟩ := packSigned_unpack (by decide) h
    exact ⟨by simp only [dvUnpack, a], b', hs 4 (by decide) h⟩
  case int16 =>
    obtain ⟨a, b'⟩ := packSigned_unpack (by decide) h
    exact ⟨by simp only [dvUnpack, a], b', hs 2 (by decide) h⟩
  case int8 =>
    obtain ⟨a, b'⟩ := packSigned_unpack (by decide) h
    exact ⟨by simp only [dvUnpack, a], b', hs 1 (by decide) h⟩
  case biguint64 =>
    obtain ⟨a, b'⟩ := packUnsigned_unpack h
    exact ⟨by simp only [dvUnpack, a], b', hu 8 h⟩
  case uint32 =>
    obtain ⟨a, b'⟩ := packUnsigned_unpack h
    exact ⟨by simp only [dvUnpack, a], b', hu 4 h⟩
  case uint16 =>
    obtain ⟨a, b'⟩ := packUnsigned_unpack h
    exact ⟨by simp only [dvUnpack, a], b', hu 2 h⟩
  case uint8 =>
    obtain ⟨a, b'⟩ := packUnsigned_unpack h
    exact ⟨by simp only [dvUnpack, a], b', hu 1 h⟩

theorem accepts_pack (c : FloatConv) (t : DVType) (n : Int) (h : DVType.Accepts t n) :
    ∃ b, dvPack c t (.int n) = .ok b := by
  cases t <;> simp only [DVType.Accepts] at h <;> simp only [dvPack, packSigned, packUnsigned] <;>
    first
    | exact h.elim
    | exact ⟨_, if_pos h⟩

/-- C37: an integer within the accessor's range, at an offset where it fits, is stored and read back
by the accessor of the same type and endianness. -/
theorem C37_set_get_int (c : FloatConv) (t : DVType) (buf : Bytes) (off : Int) (n : Int) (little : Bool)
    (h0 : 0 ≤ off) (h1 : off + t.size ≤ buf.length) (hn : DVType.Accepts t n) :
    ∃ buf', dvSet c t false buf off (.int n) little = (buf', none) ∧
      dvGet c t buf' off little = .ok (.int n) := by
  obtain ⟨b, hb⟩ := accepts_pack c t n hn
  have hset := (dvSet_cases c t false buf off (.int n) little).2.2.1 (by omega) rfl b hb
  obtain ⟨bits, hp, hg⟩ := set_get c t buf off (.int n) little _ hset
  obtain ⟨d1, d2, _⟩ := dvPack_int c t n bits
    (by refine ⟨?_, ?_, ?_⟩ <;> (rintro rfl; exact hn)) hp
  exact ⟨_, hset, by rw [hg d2, d1]⟩

/-- C37: every float64 bit pattern is stored and read back; float32 and float16 read back as the
value the narrower format holds. -/
theorem C37_set_get_float (c : FloatConv) (t : DVType) (buf : Bytes) (off : Int) (x : F64) (little : Bool)
    (h0 : 0 ≤ off) (h1 : off + t.size ≤ buf.length)
    (hc : ∀ b, c.pack32 x = some b → b < 2 ^ 32) (hc' : ∀ b, c.pack16 x = some b → b < 2 ^ 16) :
    (t = .float64 → ∃ buf', dvSet c t false buf off (.float x) little = (buf', none) ∧
      dvGet c t buf' off little = .ok (.float x)) ∧
    (t = .float32 → ∀ b, c.pack32 x = some b →
      ∃ buf', dvSet c t false buf off (.float x) little = (buf', none) ∧
        dvGet c t buf' off little = .ok (.float (c.unpack32 b))) ∧
    (t = .float16 → ∀ b, c.pack16 x = some b →
      ∃ buf', dvSet c t false buf off (.float x) little = (buf', none) ∧
        dvGet c t buf' off little = .ok (.float (c.unpack16 b))) := by
  refine ⟨?_, ?_, ?_⟩
  · rintro rfl
    have hset := (dvSet_cases c .float64 false buf off (.float x) little).2.2.1 (by omega) rfl x.toNat rfl
    obtain ⟨bits, hp, hg⟩ := set_get c .float64 buf off (.float x) little _ hset
    simp only [dvPack, Except.ok.injEq] at hp
    subst hp
    refine ⟨_, hset, ?_⟩
    rw [hg (by have := x.toNat_lt; exact this)]
    simp [dvUnpack]
  · rintro rfl b hb
    have hpk : dvPack c .float32 (.float x) = .ok b := by simp [dvPack, hb, packFloat]
    have hset := (dvSet_cases c .float32 false buf off (.float x) little).2.2.1 (by omega) rfl b hpk
    obtain ⟨bits, hp, hg⟩ := set_get c .float32 buf off (.float x) little _ hset
    rw [hpk] at hp
    simp only [Except.ok.injEq] at hp
    subst hp
    exact ⟨_, hset, by rw [hg (by have := hc b hb; exact this)]; rfl⟩
  · rintro rfl b hb
    have hpk : dvPack c .float16 (.float x) = .ok b := by simp [dvPack, hb, packFloat]
    have hset := (dvSet_cases c .float16 false buf off (.float x) little).2.2.1 (by omega) rfl b hpk
    obtain ⟨bits, hp, hg⟩ := set_get c .float16 buf off (.float x) little _ hset
    rw [hpk] at hp
    simp only [Except.ok.injEq] at hp
    subst hp
    exact ⟨_, hset, by rw [hg (by have := hc' b hb; exact this)]; rfl⟩

/-- C37: an offset outside the view, or a read-only buffer, raises and changes nothing; an integer
an accessor for integers does not accept raises, and so does a float given to it. -/
theorem C37_errors (c : FloatConv) (t : DVType) (ro : Bool) (buf : Bytes) (off : Int) (v : DVVal)
    (little : Bool) :
    ((off < 0 ∨ (buf.length : Int) < off + t.size) →
      dvSet c t ro buf off v little = (buf, some .jsArrayBufferError) ∧
      dvGet c t buf off little = .error .jsArrayBufferError) ∧
    (ro = true → (dvSet c t ro buf off v little).1 = buf ∧ (dvSet c t ro buf off v little).2 ≠ none) ∧
    (t ≠ .float16 ∧ t ≠ .float32 ∧ t ≠ .float64 →
      (∀ n, v = .int n → ¬ DVType.Accepts t n → (dvSet c t ro buf off v little).2 ≠ none) ∧
      (∀ x, v = .float x → (dvSet c t ro buf off v little).2 ≠ none)) := by
  obtain ⟨h1, h2, h3, h4⟩ := dvSet_cases c t ro buf off v little
  refine ⟨?_, ?_, ?_⟩
  · intro h
    refine ⟨h1 (by omega), ?_⟩
    unfold dvGet
    rw [if_pos (by omega)]
  · intro hr
    by_cases hb : off < 0 ∨ off + t.size > buf.length
    · rw [h1 hb]; simp
    · rw [h2 hb hr]; simp
  · refine fun ht => ⟨?_, ?_⟩
    · rintro n rfl hn
      by_cases hb : off < 0 ∨ off + t.size > buf.length
      · rw [h1 hb]; simp
      · cases ro with
        | true => rw [h2 hb rfl]; simp
        | false =>
          cases hp : dvPack c t (.int n) with
          | ok b => exact absurd (dvPack_int c t n b ht hp).2.2 hn
          | error e => rw [h4 hb rfl e hp]; simp
    · rintro x rfl
      by_cases hb : off < 0 ∨ off + t.size > buf.length
      · rw [h1 hb]; simp
      · cases ro with
        | true => rw [h2 hb rfl]; simp
        | false =>
          have hp : dvPack c t (.float x) = .error .structError := by
            cases t <;> first | rfl | simp at ht
          rw [h4 hb rfl _ hp]; simp

/-- C37 disagreement: a value the accessor refuses does not leave the buffer alone — its target bytes
are zeroed before the exception. -/
theorem C37_refused_value_clears_target :
    dvSet ⟨fun _ => none, fun _ => none, fun _ => 0, fun _ => none, fun _ => 0⟩ .uint16 false [1, 2, 3] 1 (.int 65536) true
      = ([1, 0, 0], some .structError) := by decide

/-- C37 through a view: bytes of the backing buffer outside the written element keep their values,
and the element reads back through the view. -/
theorem C37_through_view (c : FloatConv) (v : View) (t : DVType) (mv : Bytes) (off n : Int) (little : Bool)
    (h0 : 0 ≤ off) (h1 : off + t.size ≤ v.byteLength mv) (hn : DVType.Accepts t n) :
    ∃ mv', dvSetThrough c v t false mv off (.int n) little = (mv', none) ∧ mv'.length = mv.length ∧
      (∀ i : Nat, ((i : Int) < v.byteOffset mv + off ∨ v.byteOffset mv + off + t.size ≤ i) →
        mv'[i]? = mv[i]?) ∧
      dvGetThrough c v t mv' off little = .ok (.int n) := by
  obtain ⟨buf', hset, hget⟩ := C37_set_get_int c t (v.bytes mv) off n little h0
    (by simpa [View.byteLength] using h1) hn
  obtain ⟨hlen, hout⟩ := C37_touches_only_target c t false (v.bytes mv) off (.int n) little
  rw [hset] at hlen hout
  simp only at hlen hout
  obtain ⟨r1, r2, _, r4, r5⟩ := C36_region_inside v mv
  have hbound : v.byteOffset mv + buf'.length ≤ mv.length := by rw [hlen]; rw [r4] at r5; exact r5
  have hmvlen := overwrite_length mv (v.byteOffset mv) buf' hbound
  have hsz : 0 < t.size := by cases t <;> decide
  have hir : v.isInRange mv = true := by
    by_contra hc
    have he := r2 (by simpa using hc)
    rw [r4, he] at h1
    simp at h1
    omega
  obtain ⟨pre, post, hmv, hpre⟩ := r1 hir
  have hoff : v.byteOffset mv = pre.length := by simp [View.byteOffset, hir, hpre]
  refine ⟨overwrite mv (v.byteOffset mv) buf', ?_, hmvlen, ?_, ?_⟩
  · simp [dvSetThrough, hset]
  · intro i hi
    by_cases hw : i < v.byteOffset mv ∨ v.byteOffset mv + buf'.length ≤ i
    · exact overwrite_outside _ _ _ hbound i hw
    · have hj := hout (i - v.byteOffset mv) (by omega)
      have e1 : (overwrite mv (v.byteOffset mv) buf')[i]? = buf'[i - v.byteOffset mv]? := by
        have := overwrite_inside mv (v.byteOffset mv) buf' hbound
        have h2 := congrArg (fun l => l[i - v.byteOffset mv]?) this
        rw [List.getElem?_take_of_lt (by omega), List.getElem?_drop] at h2
        rw [← h2]
        congr 1; omega
      rw [e1, hj]
      conv => rhs; rw [hmv]
      rw [List.append_assoc, List.getElem?_append_right (by omega),
        List.getElem?_append_left (by rw [← hlen]; omega), hoff]
  · have hreg : v.bytes (overwrite mv (v.byteOffset mv) buf') = buf' := by
      have hsame : (v.bytes (overwrite mv (v.byteOffset mv) buf')).length = (v.bytes mv).length ∧
          v.bytes (overwrite mv (v.byteOffset mv) buf')
            = ((overwrite mv (v.byteOffset mv) buf').drop (v.itemOffset * v.tag.size)).take (v.bytes mv).length := by
        have hform : ∀ m : Bytes, m.length = mv.length →
            v.bytes m = (m.drop (v.itemOffset * v.tag.size)).take (v.bytes mv).length := by
          intro m hm
          unfold View.bytes View.region
          simp only
          cases hil : v.itemLength with
          | none =>
            simp only [hm]
            congr 1
            rw [List.length_take, List.length_drop, Nat.min_eq_left (Nat.div_mul_le_self _ _)]
          | some k =>
            have := (C36_fixed_length v k hil mv).1.1 hir
            simp only [hm]
            rw [if_neg (by omega), if_neg (by omega)]
            simp only
            rw [List.length_take, List.length_drop, Nat.min_eq_left (by omega)]
        have h2 := hform _ hmvlen
        refine ⟨?_, h2⟩
        rw [h2, List.length_take, List.length_drop, hmvlen, ← hpre]
        rw [hoff] at hbound
        rw [hlen] at hbound
        omega
      rw [hsame.2, ← hpre, ← hoff, ← hlen]
      exact overwrite_inside mv (v.byteOffset mv) buf' hbound
    rw [dvGetThrough, hreg, hget]

example : dvSet ⟨fun _ => none, fun _ => none, fun _ => 0, fun _ => none, fun _ => 0⟩ .int16 false [9, 9, 9, 9] 1 (.int (-2)) false
    = ([9, 255, 254, 9], none) := by decide

end V8.Props
