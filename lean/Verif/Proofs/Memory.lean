import Verif.Spec.Memory

/-!
# Lemmas about memory that objects share
-/

namespace V8
open V8.Spec

theorem except_bind_ok {ε α β : Type} {x : Except ε α} {f : α → Except ε β} {r : β} (h : (x >>= f) = .ok r) :
    ∃ a, x = .ok a ∧ f a = .ok r := by
  cases x with
  | error e => cases h
  | ok a => exact ⟨a, rfl, h⟩

/-- `v` shows a part of what `w` shows. -/
structure MView.Part (w v : MView) : Prop where
  block : v.block = w.block
  lo : w.off ≤ v.off
  hi : v.off + v.len ≤ w.off + w.len
  readonly : w.readonly = true → v.readonly = true
  live : v.live = w.live
  size : 0 < v.itemsize
  items : v.itemsize ∣ v.len

namespace MView

/-- Items of a positive size that fill the view. -/
structure Fine (v : MView) : Prop where
  size : 0 < v.itemsize
  items : v.itemsize ∣ v.len

theorem Part.fine {w v : MView} (h : Part w v) : v.Fine := ⟨h.size, h.items⟩

theorem Part.trans {u w v : MView} (h1 : Part u w) (h2 : Part w v) : Part u v where
  block := h2.block.trans h1.block
  lo := Nat.le_trans h1.lo h2.lo
  hi := Nat.le_trans h2.hi h1.hi
  readonly h := h2.readonly (h1.readonly h)
  live := h2.live.trans h1.live
  size := h2.size
  items := h2.items

theorem Part.rfl {v : MView} (h : v.Fine) : Part v v := ⟨Eq.refl _, Nat.le_refl _, Nat.le_refl _, id, Eq.refl _, h.size, h.items⟩

theorem slice_part {v : MView} (h : v.Fine) (lo hi : Nat) : Part v (v.slice lo hi) := by
  obtain ⟨k, hk⟩ := h.items
  have hs : v.size = k := by rw [size, hk, Nat.mul_div_cancel_left _ h.size]
  have h1 : Nat.min lo k ≤ k := Nat.min_le_right _ _
  have h2 : Nat.max (Nat.min lo k) (Nat.min hi k) ≤ k := Nat.max_le.mpr ⟨h1, Nat.min_le_right _ _⟩
  refine ⟨Eq.refl _, Nat.le_add_right _ _, ?_, id, Eq.refl _, h.size, Nat.dvd_mul_left _ _⟩
  show v.off + Nat.min lo v.size * v.itemsize + (Nat.max (Nat.min lo v.size) (Nat.min hi v.size) - Nat.min lo v.size) * v.itemsize ≤ v.off + v.len
  rw [hs, Nat.add_assoc, ← Nat.add_mul, hk, Nat.mul_comm v.itemsize k]
  have h3 : Nat.min lo k ≤ Nat.max (Nat.min lo k) (Nat.min hi k) := Nat.le_max_left _ _
  rw [Nat.add_sub_cancel' h3]
  exact Nat.add_le_add_left (Nat.mul_le_mul_right _ h2) _

theorem bytes_fine (v : MView) : Fine { v with itemsize := 1 } := ⟨Nat.one_pos, Nat.one_dvd _⟩

theorem bytes_part (v : MView) : Part v { v with itemsize := 1 } :=
  ⟨Eq.refl _, Nat.le_refl _, Nat.le_refl _, id, Eq.refl _, Nat.one_pos, Nat.one_dvd _⟩

theorem readonly_part {v : MView} (h : v.Fine) : Part v v.toReadonly :=
  ⟨Eq.refl _, Nat.le_refl _, Nat.le_refl _, fun _ => Eq.refl _, Eq.refl _, h.size, h.items⟩

theorem cast_part {v v' : MView} {k : Nat} (h : v.cast k = .ok v') : Part v v' := by
  unfold cast at h
  split at h
  · cases h
  · split at h
    · cases h
    · rename_i h1
      cases h
      exact ⟨Eq.refl _, Nat.le_refl _, Nat.le_refl _, id, Eq.refl _, by show 0 < k; omega, Nat.dvd_of_mod_eq_zero (show v.len % k = 0 by omega)⟩

end MView

theorem Block.view_fine {b : Block} (h : ∀ k, b.kind = .array k → 0 < k ∧ k ∣ b.data.length) (i : Nat) : (b.view i).Fine := by
  unfold Block.view
  split
  · exact ⟨Nat.one_pos, Nat.one_dvd _⟩
  · exact ⟨Nat.one_pos, Nat.one_dvd _⟩
  · rename_i k hk
    exact ⟨(h k hk).1, (h k hk).2⟩

theorem Block.view_block (b : Block) (i : Nat) : (b.view i).block = i := by unfold Block.view; split <;> rfl
theorem Block.view_live (b : Block) (i : Nat) : (b.view i).live = true := by unfold Block.view; split <;> rfl
theorem Block.view_off (b : Block) (i : Nat) : (b.view i).off = 0 := by unfold Block.view; split <;> rfl
theorem Block.view_len (b : Block) (i : Nat) : (b.view i).len = b.data.length := by unfold Block.view; split <;> rfl
theorem Block.view_readonly (b : Block) (i : Nat) (h : b.kind = .bytes) : (b.view i).readonly = true := by
  unfold Block.view; rw [h]

namespace Mem

/-! ## What holds of the objects at all times -/

structure Ok (m : Mem) : Prop where
  block : ∀ (i : Nat) (b : Block), m.blocks[i]? = some b → ∀ k, b.kind = .array k → 0 < k ∧ k ∣ b.data.length
  fine : ∀ (j : Nat) (v : MView), m.views[j]? = some v → v.Fine
  view : ∀ (j : Nat) (v : MView), m.views[j]? = some v → ∃ b, m.blocks[v.block]? = some b ∧ (b.kind = .bytes → v.readonly = true) ∧
    (v.live = true → v.off + v.len ≤ b.data.length)
  buf : ∀ (b : Nat) (buf : SBuf), m.bufs[b]? = some buf → ∀ i, buf.data = .block i →
    ∃ blk, m.blocks[i]? = some blk ∧ (buf.resizable = true → blk.kind = .bytearray)
  bufView : ∀ (b : Nat) (buf : SBuf), m.bufs[b]? = some buf → ∀ j, buf.data = .view j → j < m.views.length ∧ buf.resizable = false

/-- `v` is a memoryview that is in order. -/
def Good (m : Mem) (v : MView) : Prop :=
  v.Fine ∧ ∃ b, m.blocks[v.block]? = some b ∧ (b.kind = .bytes → v.readonly = true) ∧
    (v.live = true → v.off + v.len ≤ b.data.length)

theorem Good.part {m : Mem} {w v : MView} (h : m.Good w) (hp : w.Part v) : m.Good v := by
  obtain ⟨_, b, h1, h2, h3⟩ := h
  refine ⟨hp.fine, b, by rw [hp.block]; exact h1, fun hb => hp.readonly (h2 hb), fun hl => ?_⟩
  have := h3 (hp.live ▸ hl)
  have := hp.hi
  omega

theorem Ok.good {m : Mem} (h : m.Ok) {j : Nat} {v : MView} (hv : m.views[j]? = some v) : m.Good v :=
  ⟨h.fine j v hv, h.view j v hv⟩

theorem Ok.goodBlock {m : Mem} (h : m.Ok) {i : Nat} {b : Block} (hb : m.blocks[i]? = some b) : m.Good (b.view i) :=
  ⟨Block.view_fine (h.block i b hb) i, b, by rw [Block.view_block]; exact hb, fun hk => Block.view_readonly b i hk,
    fun _ => by rw [Block.view_off, Block.view_len]; omega⟩

theorem getBlock_ok {m : Mem} {i : Nat} {b : Block} (h : m.getBlock i = .ok b) : m.blocks[i]? = some b := by
  unfold getBlock at h
  split at h
  · cases h; assumption
  · cases h

theorem getView_ok {m : Mem} {j : Nat} {v : MView} (h : m.getView j = .ok v) : m.views[j]? = some v ∧ v.live = true := by
  unfold getView at h
  split at h
  · split at h
    · cases h; exact ⟨by assumption, by assumption⟩
    · cases h
  · cases h

theorem getBuf_ok {m : Mem} {b : Nat} {buf : SBuf} (h : m.getBuf b = .ok buf) : m.bufs[b]? = some buf := by
  unfold getBuf at h
  split at h
  · cases h; assumption
  · cases h

/-- The memory behind a buffer, as a memoryview. -/
inductive Behind (m : Mem) : BufData → MView → Prop where
  | block {i : Nat} {b : Block} : m.blocks[i]? = some b → Behind m (.block i) (b.view i)
  | view {j : Nat} {v : MView} : m.views[j]? = some v → v.live = true → Behind m (.view j) v

theorem bytesOf_ok {m : Mem} {d : BufData} {v : MView} (h : m.bytesOf d = .ok v) :
    ∃ w, Behind m d w ∧ v = { w with itemsize := 1 } := by
  cases d with
  | block i =>
    obtain ⟨b, h1, h2⟩ := except_bind_ok h
    cases h2
    exact ⟨_, .block (getBlock_ok h1), rfl⟩
  | view j =>
    obtain ⟨v', h1, h2⟩ := except_bind_ok h
    cases h2
    obtain ⟨h3, h4⟩ := getView_ok h1
    exact ⟨_, .view h3 h4, rfl⟩

theorem bufView_ok {m : Mem} {buf : SBuf} {v : MView} (h : m.bufView buf = .ok v) :
    ∃ w, Behind m buf.data w ∧ v = ({ w with itemsize := 1 } : MView).slice 0 buf.max := by
  obtain ⟨v', h1, h2⟩ := except_bind_ok h
  cases h2
  obtain ⟨w, h3, rfl⟩ := bytesOf_ok h1
  exact ⟨w, h3, rfl⟩

theorem bufView_part {m : Mem} {buf : SBuf} {v : MView} (h : m.bufView buf = .ok v) :
    ∃ w, Behind m buf.data w ∧ w.Part v := by
  obtain ⟨w, h1, rfl⟩ := bufView_ok h
  exact ⟨w, h1, (MView.bytes_part w).trans (MView.slice_part (MView.bytes_fine w) _ _)⟩

theorem Ok.behind {m : Mem} (h : m.Ok) {d : BufData} {w : MView} (hw : Behind m d w) : m.Good w := by
  cases hw with
  | block hb => exact h.goodBlock hb
  | view hv _ => exact h.good hv

theorem memory_part {v : View} {w : MView} (h : w.Fine) : w.Part (v.memory w) := by
  unfold View.memory
  simp only []
  split
  · split
    · exact MView.slice_part h _ _
    · exact MView.slice_part h _ _
  · exact MView.slice_part h _ _

/-! ## The effect of a call -/

/-- Where the memory of a new memoryview comes from. -/
inductive Base (m : Mem) : MemEvent → MView → Prop where
  | block {i : Nat} {b : Block} : m.blocks[i]? = some b → Base m (.view i) (b.view i)
  | newBlock {i : Nat} {b : Block} {o : BufOptions} : m.blocks[i]? = some b → Base m (.newBuf (.block i) o) (b.view i)
  | slice {j lo hi : Nat} {v : MView} : m.views[j]? = some v → v.live = true → Base m (.slice j lo hi) v
  | cast {j k : Nat} {v : MView} : m.views[j]? = some v → v.live = true → Base m (.cast j k) v
  | toReadonly {j : Nat} {v : MView} : m.views[j]? = some v → v.live = true → Base m (.toReadonly j) v
  | newView {j : Nat} {v : MView} {o : BufOptions} : m.views[j]? = some v → v.live = true → o.copyData = false →
    Base m (.newBuf (.view j) o) v
  | bufData {b : Nat} {buf : SBuf} {w : MView} : m.bufs[b]? = some buf → Behind m buf.data w → Base m (.bufData b) w
  | access {b : Nat} {buf : SBuf} {w : MView} {v : View} {r t : Bool} : m.bufs[b]? = some buf → Behind m buf.data w →
    Base m (.access b v r t) w

/-- Who writes to object `i`. -/
inductive Writer (m : Mem) (i : Nat) : MemEvent → Prop where
  | named {e : MemEvent} : names i e = true → Writer m i e
  | item {j pos : Nat} {bs : Bytes} {v : MView} : m.views[j]? = some v → v.block = i → v.readonly = false →
    Writer m i (.setItem j pos bs)
  | resize {b : Nat} {n : Int} {buf : SBuf} : m.bufs[b]? = some buf → buf.data = .block i → Writer m i (.resize b n)

/-- What a call does. -/
inductive Effect (m : Mem) : MemEvent → Mem → Prop where
  | same (e : MemEvent) : Effect m e m
  | newBlock {e : MemEvent} {b : Block} : (∀ k, b.kind = .array k → 0 < k ∧ k ∣ b.data.length) → Effect m e (m.addBlock b)
  | data {e : MemEvent} {i : Nat} {b : Block} {d : Bytes} : m.blocks[i]? = some b → b.kind ≠ .bytes → Writer m i e →
    (b.data.length = d.length ∨ b.kind = .bytearray ∧ m.exported i = false) →
    Effect m e { m with blocks := m.blocks.set i { b with data := d } }
  | view {e : MemEvent} {w v : MView} : Base m e w → w.Part v → Effect m e (m.addView v)
  | release {e : MemEvent} {j : Nat} {v : MView} : m.views[j]? = some v →
    (e = .release j ∨ ∃ b buf, e = .close b ∧ m.bufs[b]? = some buf ∧ buf.data = .view j) →
    Effect m e { m with views := m.views.set j { v with live := false } }
  | bufNew {e : MemEvent} {b : Block} {buf : SBuf} : (∀ k, b.kind ≠ .array k) → buf.data = .block m.blocks.length →
    (buf.resizable = true → b.kind = .bytearray) → Effect m e ((m.addBlock b).addBuf buf)
  | bufBlock {i : Nat} {b : Block} {buf : SBuf} {o : BufOptions} : m.blocks[i]? = some b → buf.data = .block i →
    (buf.resizable = true → b.kind = .bytearray) → Effect m (.newBuf (.block i) o) (m.addBuf buf)
  | bufView {e : MemEvent} {w v : MView} {buf : SBuf} : Base m e w → w.Part v → buf.data = .view m.views.length →
    buf.resizable = false → Effect m e ((m.addView v).addBuf buf)

theorem setData_ok {m m' : Mem} {i : Nat} {d : Bytes} (h : m.setData i d = .ok m') :
    ∃ b, m.blocks[i]? = some b ∧ (b.data.length = d.length ∨ m.exported i = false) ∧
      m' = { m with blocks := m.blocks.set i { b with data := d } } := by
  obtain ⟨b, h1, h2⟩ := except_bind_ok h
  refine ⟨b, getBlock_ok h1, ?_⟩
  split at h2
  · cases h2
  · rename_i h3
    cases h2
    refine ⟨?_, rfl⟩
    by_cases h4 : b.data.length = d.length
    · exact .inl h4
    · right
      cases h5 : m.exported i with
      | false => rfl
      | true => exact absurd ⟨h4, h5⟩ h3

theorem step_cases (m : Mem) (e : MemEvent) : (∃ m', m.call e = .ok m' ∧ m.step e = m') ∨ m.step e = m := by
  unfold step
  cases h : m.call e with
  | ok m' => exact .inl ⟨m', rfl, rfl⟩
  | error _ => exact .inr rfl

theorem bytearray_ok {m : Mem} {i : Nat} {d : Bytes} (h : m.bytearray i = .ok d) :
    ∃ b, m.blocks[i]? = some b ∧ b.kind = .bytearray ∧ d = b.data := by
  obtain ⟨b, h1, h2⟩ := except_bind_ok h
  split at h2
  · cases h2; exact ⟨b, getBlock_ok h1, by assumption, rfl⟩
  · cases h2

theorem bytes_of {m : Mem} {d : BufData} : m.isBytearray d = true → ∃ i b, d = .block i ∧ m.blocks[i]? = some b ∧ b.kind = .bytearray := by
  intro h
  cases d with
  | view j => cases h
  | block i =>
    simp only [isBytearray] at h
    cases hb : m.blocks[i]? with
    | none => rw [hb] at h; cases h
    | some b =>
      rw [hb] at h
      exact ⟨i, b, rfl, hb, by simpa using h⟩

theorem newBuf_effect {m m' : Mem} {src : BufSource} {o : BufOptions} (hok : m.Ok) (h : m.newBuf src o = .ok m') :
    Effect m (.newBuf src o) m' := by
  unfold newBuf at h
  simp only [] at h
  split at h
  · cases h
  cases hs : m.sourceData o src with
  | error e => rw [hs] at h; cases h
  | ok r =>
    obtain ⟨m1, data, len⟩ := r
    rw [hs] at h
    simp only [] at h
    split at h
    · cases h
    rename_i h0 hr
    split at h
    · cases h
    cases h
    generalize hmax : Int.toNat (o.limit len) = max
    generalize hres : (o.resizable || o.maxByteLength.isSome) = res at hr ⊢
    have hres' : res = true → m1.isBytearray data = true := by
      intro h1
      cases h2 : m1.isBytearray data with
      | true => rfl
      | false => exact absurd ⟨h1, h2⟩ hr
    have hcopy : ∀ (r : Bool) (d : Bytes), m.copied r d = (m1, data, len) →
        Effect m (.newBuf src o) (m1.addBuf ⟨data, max, res⟩) := by
      intro r d hc
      unfold copied at hc
      cases hc
      refine .bufNew (by cases r <;> simp) rfl ?_
      intro h1
      obtain ⟨i, b, h2, h3, h4⟩ := bytes_of (hres' h1)
      cases h2
      simp only [addBlock, List.getElem?_concat_length, Option.some.injEq] at h3
      rw [← h3] at h4
      exact h4
    have hnores : ∀ j, data = .view j → res = false := by
      intro j hd
      cases h1 : res with
      | false => rfl
      | true =>
        obtain ⟨i, b, h2, -, -⟩ := bytes_of (hres' h1)
        rw [hd] at h2
        cases h2
    cases src with
    | length n =>
      simp only [sourceData] at hs
      split at hs
      · cases hs; exact hcopy _ _ rfl
      · split at hs
        · cases hs
        · cases hs; exact hcopy _ _ rfl
    | block i =>
      obtain ⟨b, h1, h2⟩ := except_bind_ok hs
      have h1 := getBlock_ok h1
      split at h2
      · cases h2; exact hcopy _ _ rfl
      · split at h2
        · cases h2
          exact .bufView (.newBlock h1) (MView.readonly_part (hok.goodBlock h1).1) rfl (hnores _ rfl)
        · cases h2
          refine .bufBlock h1 rfl fun h3 => ?_
          obtain ⟨i', b', h4, h5, h6⟩ := bytes_of (hres' h3)
          cases h4
          rw [h1] at h5
          cases h5
          exact h6
    | view j =>
      obtain ⟨v, h1, h2⟩ := except_bind_ok hs
      obtain ⟨h1, h3⟩ := getView_ok h1
      by_cases hc : o.copyData = true
      · rw [if_pos hc] at h2
        obtain ⟨d, -, h4⟩ := except_bind_ok h2
        cases h4; exact hcopy _ _ rfl
      · have hc' : o.copyData = false := by simpa using hc
        rw [if_neg hc] at h2
        split at h2
        · cases h2
          exact .bufView (.newView h1 h3 hc') (MView.readonly_part (hok.good h1).1) rfl (hnores _ rfl)
        · cases h2
          exact .bufView (.newView h1 h3 hc') (MView.Part.rfl (hok.good h1).1) rfl (hnores _ rfl)

theorem call_effect {m m' : Mem} {e : MemEvent} (hok : m.Ok) (h : m.call e = .ok m') : Effect m e m' := by
  cases e with
  | newBytes d => cases h; exact .newBlock (by simp)
  | newBytearray d => cases h; exact .newBlock (by simp)
  | newArray k d =>
    have h : (if k = 0 ∨ d.length % k ≠ 0 then Except.error MemErr.valueError else .ok (m.addBlock ⟨.array k, d⟩)) = .ok m' := h
    split at h
    · cases h
    · rename_i h1
      cases h
      refine .newBlock ?_
      intro k' hk
      cases hk
      exact ⟨by omega, Nat.dvd_of_mod_eq_zero (show d.length % k = 0 by omega)⟩
  | extend i more =>
    obtain ⟨d, h1, h2⟩ := except_bind_ok h
    obtain ⟨b, h3, h4, rfl⟩ := bytearray_ok h1
    obtain ⟨b', h5, h6, rfl⟩ := setData_ok h2
    rw [h3] at h5; cases h5
    exact .data h3 (by simp [h4]) (.named (by simp [names])) (h6.imp id fun h => ⟨h4, h⟩)
  | truncate i n =>
    obtain ⟨d, h1, h2⟩ := except_bind_ok h
    obtain ⟨b, h3, h4, rfl⟩ := bytearray_ok h1
    obtain ⟨b', h5, h6, rfl⟩ := setData_ok h2
    rw [h3] at h5; cases h5
    exact .data h3 (by simp [h4]) (.named (by simp [names])) (h6.imp id fun h => ⟨h4, h⟩)
  | setByte i pos x =>
    obtain ⟨d, h1, h2⟩ := except_bind_ok h
    obtain ⟨b, h3, h4, rfl⟩ := bytearray_ok h1
    split at h2
    · cases h2
    obtain ⟨b', h5, h6, rfl⟩ := setData_ok h2
    rw [h3] at h5; cases h5
    exact .data h3 (by simp [h4]) (.named (by simp [names])) (h6.imp id fun h => ⟨h4, h⟩)
  | view i =>
    obtain ⟨b, h1, h2⟩ := except_bind_ok h
    cases h2
    have h1 := getBlock_ok h1
    exact .view (.block h1) (.rfl (hok.goodBlock h1).1)
  | slice j lo hi =>
    obtain ⟨v, h1, h2⟩ := except_bind_ok h
    cases h2
    obtain ⟨h1, h3⟩ := getView_ok h1
    exact .view (.slice h1 h3) (MView.slice_part (hok.good h1).1 _ _)
  | cast j k =>
    obtain ⟨v, h1, h2⟩ := except_bind_ok h
    obtain ⟨v', h4, h5⟩ := except_bind_ok h2
    cases h5
    obtain ⟨h1, h3⟩ := getView_ok h1
    exact .view (.cast h1 h3) (MView.cast_part h4)
  | toReadonly j =>
    obtain ⟨v, h1, h2⟩ := except_bind_ok h
    cases h2
    obtain ⟨h1, h3⟩ := getView_ok h1
    exact .view (.toReadonly h1 h3) (MView.readonly_part (hok.good h1).1)
  | release j =>
    have h : m.releaseView j = .ok m' := h
    unfold releaseView at h
    split at h
    · cases h; exact .release (by assumption) (.inl rfl)
    · cases h
  | setItem j pos bs =>
    have h : m.setItem j pos bs = .ok m' := h
    obtain ⟨v, h1, h2⟩ := except_bind_ok h
    obtain ⟨h1, h3⟩ := getView_ok h1
    split at h2
    · cases h2
    rename_i hro
    split at h2
    · cases h2
    rename_i hpos
    split at h2
    · cases h2
    rename_i hlen
    obtain ⟨b, h4, h5⟩ := except_bind_ok h2
    have h4 := getBlock_ok h4
    obtain ⟨b', h6, h7, rfl⟩ := setData_ok h5
    rw [h4] at h6; cases h6
    obtain ⟨hf, b'', h8, hby, h9⟩ := hok.good h1
    rw [h4] at h8; cases h8
    refine .data h4 (fun hk => hro (hby hk)) (.item h1 rfl (by simpa using hro)) (.inl ?_)
    have h9 := h9 h3
    obtain ⟨k, hk⟩ := hf.items
    have hs : v.size = k := by rw [MView.size, hk, Nat.mul_div_cancel_left _ hf.size]
    have h10 : (pos + 1) * v.itemsize ≤ v.len := by
      rw [hk, Nat.mul_comm]
      exact Nat.mul_le_mul_left _ (by omega)
    rw [Nat.add_mul, Nat.one_mul] at h10
    unfold overwrite
    simp only [List.length_append, List.length_take, List.length_drop]
    omega
  | newBuf src o => exact newBuf_effect hok h
  | bufData b =>
    obtain ⟨buf, h1, h2⟩ := except_bind_ok h
    obtain ⟨v, h3, h4⟩ := except_bind_ok h2
    cases h4
    obtain ⟨w, h5, h6⟩ := bufView_part h3
    exact .view (.bufData (getBuf_ok h1) h5) h6
  | resize b n =>
    have h : m.resizeBuf b n = .ok m' := h
    obtain ⟨buf, h1, h2⟩ := except_bind_ok h
    split at h2
    · cases h2
    split at h2
    · cases h2
    split at h2
    · cases h2
    rename_i i hd
    obtain ⟨blk, h3, h4⟩ := except_bind_ok h2
    have h3 := getBlock_ok h3
    split at h4
    · cases h4
    rename_i hk
    have hk : blk.kind = .bytearray := by simpa using hk
    split at h4
    all_goals
      obtain ⟨b', h6, h7, rfl⟩ := setData_ok h4
      rw [h3] at h6; cases h6
      exact .data h3 (by simp [hk]) (.resize (getBuf_ok h1) hd) (h7.imp id fun h => ⟨hk, h⟩)
  | close b =>
    have h : m.closeBuf b = .ok m' := h
    obtain ⟨buf, h1, h2⟩ := except_bind_ok h
    split at h2
    · rename_i j hd
      unfold releaseView at h2
      split at h2
      · cases h2; exact .release (by assumption) (.inr ⟨_, _, rfl, getBuf_ok h1, hd⟩)
      · cases h2
    · cases h2; exact .same _
  | access b v r t =>
    have h : m.accessBuf b v r t = .ok m' := h
    obtain ⟨buf, h1, h2⟩ := except_bind_ok h
    obtain ⟨mv, h3, h4⟩ := except_bind_ok h2
    obtain ⟨w, h5, h6⟩ := bufView_part h3
    have h7 : w.Part (v.memory (if r = true then mv.toReadonly else mv)) := by
      split
      · exact (h6.trans (MView.readonly_part h6.fine)).trans (memory_part (MView.readonly_part h6.fine).fine)
      · exact h6.trans (memory_part h6.fine)
    simp only [] at h4
    generalize v.memory (if r = true then mv.toReadonly else mv) = region at h4 h7
    split at h4
    · obtain ⟨el, h8, h9⟩ := except_bind_ok h4
      cases h9
      exact .view (.access (getBuf_ok h1) h5) (h7.trans (MView.cast_part h8))
    · cases h4
      exact .view (.access (getBuf_ok h1) h5) h7

theorem step_effect {m : Mem} (hok : m.Ok) (e : MemEvent) : Effect m e (m.step e) := by
  rcases step_cases m e with ⟨m', h1, h2⟩ | h
  · rw [h2]; exact call_effect hok h1
  · rw [h]; exact .same e

theorem exported_false {m : Mem} {i j : Nat} {v : MView} (h : m.exported i = false) (hv : m.views[j]? = some v)
    (hi : v.block = i) : v.live = false := by
  unfold exported at h
  rw [List.any_eq_false] at h
  have := h v (List.mem_of_getElem? hv)
  cases hl : v.live with
  | false => rfl
  | true => rw [hl, hi] at this; simp at this

theorem get_set {α : Type} (l : List α) (i j : Nat) (a b c : α) (hi : l[i]? = some a) (h : (l.set i b)[j]? = some c) :
    (j = i ∧ c = b) ∨ (j ≠ i ∧ l[j]? = some c) := by
  by_cases hj : j = i
  · subst hj
    obtain ⟨hlt, -⟩ := List.getElem?_eq_some_iff.mp hi
    rw [List.getElem?_set_self hlt] at h
    exact .inl ⟨rfl, (Option.some.inj h).symm⟩
  · rw [List.getElem?_set_ne (Ne.symm hj)] at h
    exact .inr ⟨hj, h⟩

theorem get_append {α : Type} {l : List α} {a c : α} {j : Nat} (h : (l ++ [a])[j]? = some c) :
    (l[j]? = some c) ∨ (j = l.length ∧ c = a) := by
  by_cases hj : j < l.length
  · rw [List.getElem?_append_left hj] at h; exact .inl h
  · rw [List.getElem?_append_right (by omega)] at h
    have : j - l.length = 0 := by
      cases hk : j - l.length with
      | zero => rfl
      | succ n => rw [hk] at h; simp at h
    rw [this] at h
    simp only [List.getElem?_cons_zero, Option.some.injEq] at h
    exact .inr ⟨by omega, h.symm⟩

theorem get_left {α : Type} {l : List α} {a c : α} {j : Nat} (h : l[j]? = some c) : (l ++ [a])[j]? = some c := by
  rw [List.getElem?_append_left (List.getElem?_eq_some_iff.mp h).1]
  exact h

theorem addBlock_ok {m : Mem} (hok : m.Ok) {b : Block} (hb : ∀ k, b.kind = .array k → 0 < k ∧ k ∣ b.data.length) :
    (m.addBlock b).Ok where
  block i b' h k hk := by
    rcases get_append h with h | ⟨-, rfl⟩
    · exact hok.block i b' h k hk
    · exact hb k hk
  fine := hok.fine
  view j v hv := by
    obtain ⟨b', h1, h2⟩ := hok.view j v hv
    exact ⟨b', get_left h1, h2⟩
  buf x buf hx i hi := by
    obtain ⟨blk, h1, h2⟩ := hok.buf x buf hx i hi
    exact ⟨blk, get_left h1, h2⟩
  bufView := hok.bufView

theorem addView_ok {m : Mem} (hok : m.Ok) {v : MView} (hv : m.Good v) : (m.addView v).Ok where
  block := hok.block
  fine j w h := by
    rcases get_append h with h | ⟨-, rfl⟩
    · exact hok.fine j w h
    · exact hv.1
  view j w h := by
    rcases get_append h with h | ⟨-, rfl⟩
    · exact hok.view j w h
    · exact hv.2
  buf := hok.buf
  bufView x buf hx j hj := by
    obtain ⟨h1, h2⟩ := hok.bufView x buf hx j hj
    exact ⟨by show j < (m.views ++ [v]).length; rw [List.length_append]; omega, h2⟩

theorem addBuf_ok {m : Mem} (hok : m.Ok) {buf : SBuf}
    (h1 : ∀ i, buf.data = .block i → ∃ blk, m.blocks[i]? = some blk ∧ (buf.resizable = true → blk.kind = .bytearray))
    (h2 : ∀ j, buf.data = .view j → j < m.views.length ∧ buf.resizable = false) : (m.addBuf buf).Ok where
  block := hok.block
  fine := hok.fine
  view := hok.view
  buf x b hx := by
    rcases get_append hx with h | ⟨-, rfl⟩
    · exact hok.buf x b h
    · exact h1
  bufView x b hx := by
    rcases get_append hx with h | ⟨-, rfl⟩
    · exact hok.bufView x b h
    · exact h2

theorem Base.good {m : Mem} (hok : m.Ok) {e : MemEvent} {w : MView} (h : Base m e w) : m.Good w := by
  cases h with
  | block h | newBlock h => exact hok.goodBlock h
  | slice h | cast h | toReadonly h | newView h => exact hok.good h
  | bufData _ h | access _ h => exact hok.behind h

theorem Effect.ok {m m' : Mem} {e : MemEvent} (hok : m.Ok) (h : Effect m e m') : m'.Ok := by
  cases h with
  | same => exact hok
  | newBlock hb => exact addBlock_ok hok hb
  | view hb hp => exact addView_ok hok ((hb.good hok).part hp)
  | @bufNew _ b buf hk hd hr =>
    refine addBuf_ok (addBlock_ok hok fun k h => absurd h (hk k)) (fun i hi => ?_) (fun j hj => ?_)
    · rw [hd] at hi; cases hi
      exact ⟨b, by simp [addBlock], hr⟩
    · rw [hd] at hj; cases hj
  | @bufBlock i b buf o h1 hd hr =>
    refine addBuf_ok hok (fun i hi => ?_) (fun j hj => ?_)
    · rw [hd] at hi; cases hi
      exact ⟨b, h1, hr⟩
    · rw [hd] at hj; cases hj
  | bufView hb hp hd hr =>
    refine addBuf_ok (addView_ok hok ((hb.good hok).part hp)) (fun i hi => ?_) (fun j hj => ?_)
    · rw [hd] at hi; cases hi
    · rw [hd] at hj; cases hj
      exact ⟨by simp [addView], hr⟩
  | @release _ j v hv _ =>
    refine ⟨hok.block, ?_, ?_, hok.buf, ?_⟩
    · intro j' w h
      rcases get_set _ _ _ _ _ _ hv h with ⟨rfl, rfl⟩ | ⟨-, h⟩
      · exact ⟨(hok.fine _ v hv).size, (hok.fine _ v hv).items⟩
      · exact hok.fine _ w h
    · intro j' w h
      rcases get_set _ _ _ _ _ _ hv h with ⟨rfl, rfl⟩ | ⟨-, h⟩
      · obtain ⟨b, h1, h2, -⟩ := hok.view _ v hv
        exact ⟨b, h1, h2, by simp⟩
      · exact hok.view _ w h
    · intro b buf hb j' hj
      obtain ⟨h1, h2⟩ := hok.bufView b buf hb j' hj
      exact ⟨by simpa using h1, h2⟩
  | @data _ i b d hb _ _ hlen =>
    have hkeep : ∀ (i' : Nat) (b' : Block), m.blocks[i']? = some b' →
        ∃ b'', (m.blocks.set i { b with data := d })[i']? = some b'' ∧ b''.kind = b'.kind ∧
          (b''.data.length = b'.data.length ∨ i' = i ∧ m.exported i = false) := by
      intro i' b' h
      by_cases hi : i' = i
      · subst hi
        rw [hb] at h; cases h
        refine ⟨_, List.getElem?_set_self (List.getElem?_eq_some_iff.mp hb).1, rfl, ?_⟩
        exact hlen.imp Eq.symm fun h => ⟨rfl, h.2⟩
      · exact ⟨b', by rw [List.getElem?_set_ne (Ne.symm hi)]; exact h, rfl, .inl rfl⟩
    refine ⟨?_, hok.fine, ?_, ?_, hok.bufView⟩
    · intro i' b' h k hk
      rcases get_set _ _ _ _ _ _ hb h with ⟨rfl, rfl⟩ | ⟨-, h⟩
      · rcases hlen with hlen | ⟨hlen, -⟩
        · have := hok.block _ b hb k hk
          rw [hlen] at this
          exact this
        · have hk : b.kind = .array k := hk
          rw [hlen] at hk; cases hk
      · exact hok.block _ b' h k hk
    · intro j v hv
      obtain ⟨b', h1, h2, h3⟩ := hok.view j v hv
      obtain ⟨b'', h4, h5, h6⟩ := hkeep _ _ h1
      refine ⟨b'', h4, fun h => h2 (h5 ▸ h), fun hl => ?_⟩
      rcases h6 with h6 | ⟨h6, h7⟩
      · rw [h6]; exact h3 hl
      · rw [exported_false h7 hv h6] at hl; cases hl
    · intro x buf hx i' hi
      obtain ⟨blk, h1, h2⟩ := hok.buf x buf hx i' hi
      obtain ⟨b'', h4, h5, -⟩ := hkeep _ _ h1
      exact ⟨b'', h4, fun h => h5.trans (h2 h)⟩

theorem empty_ok : Mem.empty.Ok := ⟨by simp [empty], by simp [empty], by simp [empty], by simp [empty], by simp [empty]⟩

theorem step_ok {m : Mem} (hok : m.Ok) (e : MemEvent) : (m.step e).Ok := (step_effect hok e).ok hok

theorem run_ok {m : Mem} (hok : m.Ok) (es : List MemEvent) : (m.run es).Ok := by
  induction es generalizing m with
  | nil => exact hok
  | cons e es ih => exact ih (step_ok hok e)

/-! ## What stays -/

theorem Effect.bufs {m m' : Mem} {e : MemEvent} (h : Effect m e m') {b : Nat} {buf : SBuf} (hb : m.bufs[b]? = some buf) :
    m'.bufs[b]? = some buf := by
  cases h <;> first
    | exact hb
    | exact get_left hb

theorem run_bufs {m : Mem} (hok : m.Ok) (es : List MemEvent) {b : Nat} {buf : SBuf} (hb : m.bufs[b]? = some buf) :
    (m.run es).bufs[b]? = some buf := by
  induction es generalizing m with
  | nil => exact hb
  | cons e es ih => exact ih (step_ok hok e) ((step_effect hok e).bufs hb)

theorem Effect.kind {m m' : Mem} {e : MemEvent} (h : Effect m e m') {i : Nat} {b : Block} (hb : m.blocks[i]? = some b) :
    ∃ b', m'.blocks[i]? = some b' ∧ b'.kind = b.kind ∧ (b' = b ∨ Writer m i e ∧ b.kind ≠ .bytes) := by
  cases h with
  | same | view | release | bufBlock | bufView => exact ⟨b, hb, rfl, .inl rfl⟩
  | newBlock | bufNew => exact ⟨b, get_left hb, rfl, .inl rfl⟩
  | @data _ i' b' d hb' hn hw _ =>
    by_cases hi : i = i'
    · subst hi
      rw [hb] at hb'; cases hb'
      exact ⟨_, List.getElem?_set_self (List.getElem?_eq_some_iff.mp hb).1, rfl, .inr ⟨hw, hn⟩⟩
    · exact ⟨b, by show (m.blocks.set i' _)[i]? = some b; rw [List.getElem?_set_ne (Ne.symm hi)]; exact hb, rfl, .inl rfl⟩

theorem run_bytes {m : Mem} (hok : m.Ok) (es : List MemEvent) {i : Nat} {b : Block} (hb : m.blocks[i]? = some b)
    (hk : b.kind = .bytes) : (m.run es).blocks[i]? = some b := by
  induction es generalizing m with
  | nil => exact hb
  | cons e es ih =>
    obtain ⟨b', h1, h2, h3 | ⟨-, h3⟩⟩ := (step_effect hok e).kind hb
    · subst h3; exact ih (step_ok hok e) h1
    · exact absurd hk h3

theorem run_kind {m : Mem} (hok : m.Ok) (es : List MemEvent) {i : Nat} {b : Block} (hb : m.blocks[i]? = some b) :
    ∃ b', (m.run es).blocks[i]? = some b' ∧ b'.kind = b.kind := by
  induction es generalizing m b with
  | nil => exact ⟨b, hb, rfl⟩
  | cons e es ih =>
    obtain ⟨b', h1, h2, -⟩ := (step_effect hok e).kind hb
    obtain ⟨b'', h3, h4⟩ := ih (step_ok hok e) h1
    exact ⟨b'', h3, h4.trans h2⟩

/-! ## Memory of one's own -/

/-- The memoryviews and buffers on object `i` are among the given ones. -/
structure Private (m : Mem) (i : Nat) (h : Handles) : Prop where
  views : ∀ (j : Nat) (v : MView), m.views[j]? = some v → v.block = i → j ∈ h.views
  bufs : ∀ (b : Nat) (buf : SBuf), m.bufs[b]? = some buf →
    (buf.data = .block i ∨ ∃ j v, buf.data = .view j ∧ m.views[j]? = some v ∧ v.block = i) → b ∈ h.bufs

theorem Private.behind {m : Mem} {i : Nat} {h : Handles} (hp : Private m i h) {b : Nat} {buf : SBuf} {w : MView}
    (hb : m.bufs[b]? = some buf) (hw : Behind m buf.data w) (hi : w.block = i) : b ∈ h.bufs := by
  generalize hd : buf.data = d at hw
  cases hw with
  | block h1 =>
    rw [Block.view_block] at hi
    subst hi
    exact hp.bufs b buf hb (.inl hd)
  | @view j v h1 h2 => exact hp.bufs b buf hb (.inr ⟨j, _, hd, h1, hi⟩)

theorem Private.base {m : Mem} {i : Nat} {h : Handles} (hp : Private m i h) {e : MemEvent} {w : MView}
    (hb : Base m e w) (hi : w.block = i) (hn : names i e = false) : derives h e = true := by
  cases hb with
  | block h1 | newBlock h1 =>
    rw [Block.view_block] at hi
    subst hi
    simp [names] at hn
  | slice h1 | cast h1 | toReadonly h1 => simp [derives, hp.views _ _ h1 hi]
  | newView h1 _ h2 => simp [derives, hp.views _ _ h1 hi, h2]
  | bufData h1 h2 | access h1 h2 => simp [derives, hp.behind h1 h2 hi]

theorem after_views {h : Handles} {m : Mem} {e : MemEvent} {j : Nat} (hj : j ∈ h.views) : j ∈ (h.after m e).views := by
  unfold Handles.after
  split
  · exact List.mem_append_left _ hj
  · exact hj

theorem after_bufs {h : Handles} {m : Mem} {e : MemEvent} {j : Nat} (hj : j ∈ h.bufs) : j ∈ (h.after m e).bufs := by
  unfold Handles.after
  split
  · exact List.mem_append_left _ hj
  · exact hj

theorem Private.step {m : Mem} (hok : m.Ok) {i : Nat} {b : Block} {h : Handles} (hp : Private m i h)
    (hb : m.blocks[i]? = some b) (e : MemEvent) (hw : writes h e = false) (hn : names i e = false) :
    (m.step e).blocks[i]? = some b ∧ Private (m.step e) i (h.after m e) := by
  have heff := step_effect hok e
  have hnew : derives h e = true → ∀ j, m.views.length ≤ j → j < (m.step e).views.length → j ∈ (h.after m e).views := by
    intro hd j h1 h2
    unfold Handles.after
    rw [if_pos hd]
    exact List.mem_append_right _ (by rw [List.mem_range'_1]; omega)
  have hnew' : derives h e = true → ∀ j, m.bufs.length ≤ j → j < (m.step e).bufs.length → j ∈ (h.after m e).bufs := by
    intro hd j h1 h2
    unfold Handles.after
    rw [if_pos hd]
    exact List.mem_append_right _ (by rw [List.mem_range'_1]; omega)
  have hlt : i < m.blocks.length := (List.getElem?_eq_some_iff.mp hb).1
  constructor
  · obtain ⟨b', h1, -, h3 | ⟨h3, -⟩⟩ := heff.kind hb
    · rw [h1, h3]
    · cases h3 with
      | named h4 => rw [h4] at hn; cases hn
      | item h4 h5 => simp [writes, hp.views _ _ h4 h5] at hw
      | resize h4 h5 => simp [writes, hp.bufs _ _ h4 (.inl h5)] at hw
  · generalize hm : m.step e = m' at heff hnew hnew'
    cases heff with
    | same => exact ⟨fun j v h1 h2 => after_views (hp.views j v h1 h2), fun b' buf h1 h2 => after_bufs (hp.bufs b' buf h1 h2)⟩
    | newBlock => exact ⟨fun j v h1 h2 => after_views (hp.views j v h1 h2), fun b' buf h1 h2 => after_bufs (hp.bufs b' buf h1 h2)⟩
    | data => exact ⟨fun j v h1 h2 => after_views (hp.views j v h1 h2), fun b' buf h1 h2 => after_bufs (hp.bufs b' buf h1 h2)⟩
    | @view _ w v hbase hpart =>
      constructor
      · intro j v' h1 h2
        rcases get_append h1 with h1 | ⟨rfl, rfl⟩
        · exact after_views (hp.views _ _ h1 h2)
        · exact hnew (hp.base hbase (hpart.block ▸ h2) hn) _ (Nat.le_refl _) (by simp [addView])
      · intro b' buf h1 h2
        rcases h2 with h2 | ⟨j, v', h2, h3, h4⟩
        · exact after_bufs (hp.bufs _ _ h1 (.inl h2))
        · rcases get_append h3 with h3 | ⟨rfl, -⟩
          · exact after_bufs (hp.bufs _ _ h1 (.inr ⟨_, _, h2, h3, h4⟩))
          · exact absurd (hok.bufView _ _ h1 _ h2).1 (Nat.lt_irrefl _)
    | @release _ j v hv _ =>
      have hview : ∀ (j' : Nat) (v' : MView), (m.views.set j { v with live := false })[j']? = some v' → v'.block = i →
          ∃ v'', m.views[j']? = some v'' ∧ v''.block = i := by
        intro j' v' h1 h2
        rcases get_set _ _ _ _ _ _ hv h1 with ⟨rfl, rfl⟩ | ⟨-, h1⟩
        · exact ⟨v, hv, h2⟩
        · exact ⟨v', h1, h2⟩
      constructor
      · intro j' v' h1 h2
        obtain ⟨v'', h3, h4⟩ := hview j' v' h1 h2
        exact after_views (hp.views _ _ h3 h4)
      · intro b' buf h1 h2
        rcases h2 with h2 | ⟨j', v', h2, h3, h4⟩
        · exact after_bufs (hp.bufs _ _ h1 (.inl h2))
        · obtain ⟨v'', h5, h6⟩ := hview j' v' h3 h4
          exact after_bufs (hp.bufs _ _ h1 (.inr ⟨_, _, h2, h5, h6⟩))
    | @bufNew _ b0 buf0 _ hd _ =>
      constructor
      · intro j v h1 h2
        exact after_views (hp.views j v h1 h2)
      · intro b' buf h1 h2
        rcases get_append h1 with h1 | ⟨-, rfl⟩
        · exact after_bufs (hp.bufs _ _ h1 h2)
        · rw [hd] at h2
          rcases h2 with h2 | ⟨j, v, h2, -⟩
          · cases h2; exact absurd hlt (Nat.lt_irrefl _)
          · cases h2
    | @bufBlock i' b0 buf0 o h3 hd _ =>
      constructor
      · intro j v h1 h2
        exact after_views (hp.views j v h1 h2)
      · intro b' buf h1 h2
        rcases get_append h1 with h1 | ⟨-, rfl⟩
        · exact after_bufs (hp.bufs _ _ h1 h2)
        · rw [hd] at h2
          rcases h2 with h2 | ⟨j, v, h2, -⟩
          · cases h2; simp [names] at hn
          · cases h2
    | @bufView _ w v buf0 hbase hpart hd _ =>
      constructor
      · intro j v' h1 h2
        rcases get_append h1 with h1 | ⟨rfl, rfl⟩
        · exact after_views (hp.views _ _ h1 h2)
        · exact hnew (hp.base hbase (hpart.block ▸ h2) hn) _ (Nat.le_refl _) (by simp [addView, addBuf])
      · intro b' buf h1 h2
        rcases get_append h1 with h1 | ⟨rfl, rfl⟩
        · rcases h2 with h2 | ⟨j, v', h2, h3, h4⟩
          · exact after_bufs (hp.bufs _ _ h1 (.inl h2))
          · rcases get_append h3 with h3 | ⟨rfl, -⟩
            · exact after_bufs (hp.bufs _ _ h1 (.inr ⟨_, _, h2, h3, h4⟩))
            · exact absurd (hok.bufView _ _ h1 _ h2).1 (Nat.lt_irrefl _)
        · rw [hd] at h2
          rcases h2 with h2 | ⟨j, v', h2, h3, h4⟩
          · cases h2
          · cases h2
            rcases get_append h3 with h3 | ⟨-, rfl⟩
            · exact absurd (List.getElem?_eq_some_iff.mp h3).1 (Nat.lt_irrefl _)
            · exact hnew' (hp.base hbase (hpart.block ▸ h4) hn) _ (Nat.le_refl _) (by simp [addBuf])

theorem Private.run {m : Mem} (hok : m.Ok) {i : Nat} {b : Block} {h : Handles} (hp : Private m i h)
    (hb : m.blocks[i]? = some b) (es : List MemEvent) (hu : Untouched i m h es) : (m.run es).blocks[i]? = some b := by
  induction es generalizing m h with
  | nil => exact hb
  | cons e es ih =>
    obtain ⟨h1, h2, h3⟩ := hu
    obtain ⟨h4, h5⟩ := hp.step hok hb e h1 h2
    exact ih (step_ok hok e) h5 h4 h3

/-! ## The bytes of a buffer -/

theorem slice_zero (v : MView) (n : Nat) : ({ v with itemsize := 1 } : MView).slice 0 n =
    { v with itemsize := 1, len := Nat.min n v.len } := by
  simp only [MView.slice, MView.size, Nat.div_one, Nat.mul_one]
  have h : Nat.min 0 v.len = 0 := Nat.zero_min _
  have h2 : Nat.max 0 (Nat.min n v.len) = Nat.min n v.len := Nat.zero_max _
  rw [h, h2, Nat.add_zero, Nat.sub_zero]

theorem exposed_block {m : Mem} {b i : Nat} {buf : SBuf} {blk : Block} (hb : m.bufs[b]? = some buf) (hd : buf.data = .block i)
    (hi : m.blocks[i]? = some blk) : m.exposed b = .ok (blk.data.take buf.max) := by
  have h1 : m.getBuf b = .ok buf := by simp [getBuf, hb]
  have h2 : m.getBlock i = .ok blk := by simp [getBlock, hi]
  have h3 : m.bufView buf = .ok (({ blk.view i with itemsize := 1 } : MView).slice 0 buf.max) := by
    simp only [bufView, hd, bytesOf, h2]; rfl
  show (m.getBuf b >>= fun buf => m.bufView buf >>= fun v => m.contents v) = _
  rw [h1]
  show (m.bufView buf >>= fun v => m.contents v) = _
  rw [h3]
  show m.contents _ = _
  rw [slice_zero]
  unfold contents
  simp only [Block.view_block, h2, Block.view_off, Block.view_len]
  show Except.ok _ = _
  rw [List.drop_zero]
  congr 1
  by_cases h : buf.max ≤ blk.data.length
  · rw [show Nat.min buf.max blk.data.length = buf.max from Nat.min_eq_left h]
  · rw [show Nat.min buf.max blk.data.length = blk.data.length from Nat.min_eq_right (by omega),
      List.take_of_length_le (Nat.le_refl _), List.take_of_length_le (by omega)]

theorem exposed_view {m : Mem} {b j : Nat} {buf : SBuf} {v : MView} {blk : Block} (hb : m.bufs[b]? = some buf)
    (hd : buf.data = .view j) (hj : m.views[j]? = some v) (hl : v.live = true) (hi : m.blocks[v.block]? = some blk) :
    m.exposed b = .ok (((blk.data.drop v.off).take v.len).take buf.max) := by
  have h1 : m.getBuf b = .ok buf := by simp [getBuf, hb]
  have h2 : m.getBlock v.block = .ok blk := by simp [getBlock, hi]
  have h4 : m.getView j = .ok v := by simp [getView, hj, hl]
  have h3 : m.bufView buf = .ok (({ v with itemsize := 1 } : MView).slice 0 buf.max) := by
    simp only [bufView, hd, bytesOf, h4]; rfl
  show (m.getBuf b >>= fun buf => m.bufView buf >>= fun v => m.contents v) = _
  rw [h1]
  show (m.bufView buf >>= fun v => m.contents v) = _
  rw [h3]
  show m.contents _ = _
  rw [slice_zero]
  unfold contents
  simp only [h2]
  show Except.ok _ = _
  rw [List.take_take]

theorem exposed_released {m : Mem} {b j : Nat} {buf : SBuf} {v : MView} (hb : m.bufs[b]? = some buf)
    (hd : buf.data = .view j) (hj : m.views[j]? = some v) (hl : v.live = false) : m.exposed b = .error .valueError := by
  have h1 : m.getBuf b = .ok buf := by simp [getBuf, hb]
  have h4 : m.getView j = .error .valueError := by simp [getView, hj, hl]
  have h3 : m.bufView buf = .error .valueError := by
    simp only [bufView, hd, bytesOf, h4]; rfl
  show (m.getBuf b >>= fun buf => m.bufView buf >>= fun v => m.contents v) = _
  rw [h1]
  show (m.bufView buf >>= fun v => m.contents v) = _
  rw [h3]
  rfl

/-- A buffer shows something, or its memoryview was released. -/
theorem Ok.exposed {m : Mem} (hok : m.Ok) {b : Nat} {buf : SBuf} (hb : m.bufs[b]? = some buf) :
    (∃ d, m.exposed b = .ok d) ∨ m.exposed b = .error .valueError := by
  cases hd : buf.data with
  | block i =>
    obtain ⟨blk, h1, -⟩ := hok.buf b buf hb i hd
    exact .inl ⟨_, exposed_block hb hd h1⟩
  | view j =>
    obtain ⟨h1, -⟩ := hok.bufView b buf hb j hd
    obtain ⟨v, hv⟩ : ∃ v, m.views[j]? = some v := ⟨_, List.getElem?_eq_getElem h1⟩
    cases hl : v.live with
    | true =>
      obtain ⟨blk, h2, -⟩ := hok.view j v hv
      exact .inl ⟨_, exposed_view hb hd hv hl h2⟩
    | false => exact .inr (exposed_released hb hd hv hl)

/-! ## Memoryviews over time -/

theorem Effect.views {m m' : Mem} {e : MemEvent} (h : Effect m e m') {j : Nat} {v : MView} (hv : m.views[j]? = some v) :
    m'.views[j]? = some v ∨ m'.views[j]? = some { v with live := false } ∧
      (e = .release j ∨ ∃ b buf, e = .close b ∧ m.bufs[b]? = some buf ∧ buf.data = .view j) := by
  cases h with
  | same | newBlock | data | bufNew | bufBlock => exact .inl hv
  | view | bufView => exact .inl (get_left hv)
  | @release _ j' v' hv' hr =>
    by_cases hj : j = j'
    · subst hj
      rw [hv] at hv'; cases hv'
      exact .inr ⟨List.getElem?_set_self (List.getElem?_eq_some_iff.mp hv).1, hr⟩
    · left
      show (m.views.set j' _)[j]? = some v
      rw [List.getElem?_set_ne (Ne.symm hj)]; exact hv

theorem run_views {m : Mem} (hok : m.Ok) (es : List MemEvent) {j : Nat} {v : MView} (hv : m.views[j]? = some v) :
    ∃ l, (m.run es).views[j]? = some { v with live := l } ∧ (v.live = false → l = false) := by
  induction es generalizing m v with
  | nil => exact ⟨v.live, hv, id⟩
  | cons e es ih =>
    rcases (step_effect hok e).views hv with h | ⟨h, -⟩
    · exact ih (step_ok hok e) h
    · obtain ⟨l, h1, h2⟩ := ih (step_ok hok e) h
      exact ⟨l, h1, fun _ => h2 rfl⟩

/-- Only one buffer has the memoryview as its memory. -/
theorem Effect.owner {m m' : Mem} {e : MemEvent} (h : Effect m e m') {j b : Nat} (hj : j < m.views.length)
    (ho : ∀ (b' : Nat) (buf : SBuf), m.bufs[b']? = some buf → buf.data = .view j → b' = b) :
    ∀ (b' : Nat) (buf : SBuf), m'.bufs[b']? = some buf → buf.data = .view j → b' = b := by
  intro b' buf h1 h2
  cases h with
  | same | newBlock | data | view | release => exact ho b' buf h1 h2
  | bufNew _ hd | bufBlock _ hd =>
    rcases get_append h1 with h1 | ⟨-, rfl⟩
    · exact ho b' buf h1 h2
    · rw [hd] at h2; cases h2
  | bufView _ _ hd =>
    rcases get_append h1 with h1 | ⟨-, rfl⟩
    · exact ho b' buf h1 h2
    · rw [hd] at h2; cases h2; exact absurd hj (Nat.lt_irrefl _)

theorem run_owned {m : Mem} (hok : m.Ok) (es : List MemEvent) {j b : Nat} {v : MView} (hv : m.views[j]? = some v)
    (ho : ∀ (b' : Nat) (buf : SBuf), m.bufs[b']? = some buf → buf.data = .view j → b' = b)
    (hes : ∀ e ∈ es, e ≠ .release j ∧ e ≠ .close b) : (m.run es).views[j]? = some v := by
  induction es generalizing m with
  | nil => exact hv
  | cons e es ih =>
    have he := hes e (by simp)
    rcases (step_effect hok e).views hv with h | ⟨-, h⟩
    · exact ih (step_ok hok e) h ((step_effect hok e).owner (List.getElem?_eq_some_iff.mp hv).1 ho)
        fun e h => hes e (List.mem_cons_of_mem _ h)
    · rcases h with h | ⟨b', buf, h, h1, h2⟩
      · exact absurd h he.1
      · rw [ho b' buf h1 h2] at h
        exact absurd h he.2

/-! ## Views on buffers -/

theorem slice_list (l : Bytes) (len lo hi : Nat) (h : lo ≤ hi) :
    (l.drop (Nat.min lo len)).take (Nat.max (Nat.min lo len) (Nat.min hi len) - Nat.min lo len) =
      ((l.take len).drop lo).take (hi - lo) := by
  rw [List.drop_take, List.take_take]
  by_cases hl : lo ≤ len
  · rw [show Nat.min lo len = lo from Nat.min_eq_left hl]
    congr 1
    by_cases hh : hi ≤ len
    · rw [show Nat.min hi len = hi from Nat.min_eq_left hh, show Nat.max lo hi = hi from Nat.max_eq_right h]
      omega
    · rw [show Nat.min hi len = len from Nat.min_eq_right (by omega), show Nat.max lo len = len from Nat.max_eq_right hl]
      omega
  · rw [show Nat.min lo len = len from Nat.min_eq_right (by omega), show Nat.min hi len = len from Nat.min_eq_right (by omega),
      show Nat.max len len = len from Nat.max_self _]
    rw [show len - len = 0 by omega, show min (hi - lo) (len - lo) = 0 by omega]
    rfl

theorem slice_contents {m : Mem} {v : MView} {d : Bytes} {lo hi : Nat} (hs : v.itemsize = 1) (hd : m.contents v = .ok d)
    (h : lo ≤ hi) : m.contents (v.slice lo hi) = .ok ((d.drop lo).take (hi - lo)) := by
  obtain ⟨b, h1, h2⟩ := except_bind_ok hd
  cases h2
  have hv : v.slice lo hi = ⟨v.block, v.off + Nat.min lo v.len,
      Nat.max (Nat.min lo v.len) (Nat.min hi v.len) - Nat.min lo v.len, v.itemsize, v.readonly, v.live⟩ := by
    simp only [MView.slice, MView.size, hs, Nat.div_one, Nat.mul_one]
  rw [hv]
  unfold contents
  simp only [h1]
  show Except.ok _ = Except.ok _
  rw [← slice_list _ _ _ _ h, List.drop_drop]

theorem slice_len (v : MView) (lo hi : Nat) (hs : v.itemsize = 1) (h : lo ≤ hi) :
    (v.slice lo hi).len = min (hi - lo) (v.len - lo) := by
  simp only [MView.slice, MView.size, hs, Nat.div_one, Nat.mul_one]
  show Max.max (min lo v.len) (min hi v.len) - min lo v.len = _
  omega

/-- What a view shows of the bytes of its buffer. -/
theorem memory_contents {m : Mem} {w : MView} {d : Bytes} (v : View) (hs : w.itemsize = 1) (hd : m.contents w = .ok d)
    (hl : d.length = w.len) : m.contents (v.memory w) = .ok (v.bytes d) := by
  unfold View.memory View.bytes View.region
  simp only [hl]
  cases v.itemLength with
  | some n =>
    simp only []
    split
    · rw [slice_contents hs hd (by omega)]; simp
    · rw [slice_contents hs hd (by omega), Nat.add_sub_cancel_left]
  | none =>
    simp only []
    rw [slice_contents hs hd (by omega), Nat.add_sub_cancel_left]

/-- It is a whole number of items. -/
theorem memory_items (v : View) (w : MView) (hs : w.itemsize = 1) : v.tag.size ∣ (v.memory w).len := by
  unfold View.memory
  simp only []
  split
  · rename_i n _
    split
    · rw [slice_len _ _ _ hs (by omega)]
      rw [show min (v.itemOffset * v.tag.size + 0 - v.itemOffset * v.tag.size) (w.len - v.itemOffset * v.tag.size) = 0 by omega]
      exact Nat.dvd_zero _
    · rw [slice_len _ _ _ hs (by omega)]
      rw [show min (v.itemOffset * v.tag.size + n * v.tag.size - v.itemOffset * v.tag.size) (w.len - v.itemOffset * v.tag.size) =
        n * v.tag.size by omega]
      exact Nat.dvd_mul_left _ _
  · rw [slice_len _ _ _ hs (by omega)]
    have := Nat.div_mul_le_self (w.len - v.itemOffset * v.tag.size) v.tag.size
    rw [show min (v.itemOffset * v.tag.size + (w.len - v.itemOffset * v.tag.size) / v.tag.size * v.tag.size -
      v.itemOffset * v.tag.size) (w.len - v.itemOffset * v.tag.size) =
        (w.len - v.itemOffset * v.tag.size) / v.tag.size * v.tag.size by omega]
    exact Nat.dvd_mul_left _ _

theorem memory_size (v : View) (w : MView) : (v.memory w).itemsize = w.itemsize := by
  unfold View.memory
  simp only []
  split
  · split <;> rfl
  · rfl

/-- The memoryview of a buffer that shows something. -/
theorem exposed_inv {m : Mem} (hok : m.Ok) {b : Nat} {d : Bytes} (h : m.exposed b = .ok d) :
    ∃ buf w, m.getBuf b = .ok buf ∧ m.bufView buf = .ok w ∧ m.contents w = .ok d ∧ w.itemsize = 1 ∧ d.length = w.len := by
  obtain ⟨buf, h1, h2⟩ := except_bind_ok h
  obtain ⟨w, h3, h4⟩ := except_bind_ok h2
  refine ⟨buf, w, h1, h3, h4, ?_, ?_⟩
  · obtain ⟨w0, h5, h6⟩ := except_bind_ok h3
    cases h6
    obtain ⟨u, -, rfl⟩ := bytesOf_ok h5
    rfl
  · obtain ⟨u, h5, h6⟩ := bufView_part h3
    obtain ⟨-, blk', h9, -, h10⟩ := (hok.behind h5).part h6
    obtain ⟨blk, h7, h8⟩ := except_bind_ok h4
    cases h8
    have h7 := getBlock_ok h7
    rw [h9] at h7; cases h7
    have hlive : w.live = true := by
      rw [h6.live]
      generalize buf.data = dd at h5
      cases h5 with
      | block => exact Block.view_live _ _
      | view _ h => exact h
    have := h10 hlive
    rw [List.length_take, List.length_drop]
    omega

/-! ## New buffers -/

theorem newBuf_inv {m m' : Mem} {src : BufSource} {o : BufOptions} (h : m.newBuf src o = .ok m') :
    ∃ m1 data len, m.sourceData o src = .ok (m1, data, len) ∧ (len : Int) ≤ o.limit len ∧
      m' = m1.addBuf ⟨data, (o.limit len).toNat, o.resizable || o.maxByteLength.isSome⟩ := by
  unfold newBuf at h
  simp only [] at h
  split at h
  · cases h
  cases hs : m.sourceData o src with
  | error e => rw [hs] at h; cases h
  | ok r =>
    obtain ⟨m1, data, len⟩ := r
    rw [hs] at h
    simp only [] at h
    split at h
    · cases h
    split at h
    · cases h
    · cases h
      exact ⟨m1, data, len, rfl, by omega, rfl⟩

theorem source_bufs {m m1 : Mem} {src : BufSource} {o : BufOptions} {data : BufData} {len : Nat}
    (h : m.sourceData o src = .ok (m1, data, len)) : m1.bufs = m.bufs := by
  cases src with
  | length n =>
    simp only [sourceData] at h
    split at h
    · cases h; rfl
    · split at h
      · cases h
      · cases h; rfl
  | block i =>
    obtain ⟨b1, -, h4⟩ := except_bind_ok h
    split at h4
    · cases h4; rfl
    · split at h4 <;> cases h4 <;> rfl
  | view j =>
    obtain ⟨v1, -, h4⟩ := except_bind_ok h
    split at h4
    · obtain ⟨d, -, h5⟩ := except_bind_ok h4
      cases h5; rfl
    · split at h4 <;> cases h4 <;> rfl

/-- `get_buffer()`, taken apart. -/
theorem accessBuf_ok {m m' : Mem} {b : Nat} {v : View} {r t : Bool} (h : m.accessBuf b v r t = .ok m') :
    ∃ buf w x, m.bufs[b]? = some buf ∧ Behind m buf.data w ∧ w.Part x ∧ m' = m.addView x := by
  obtain ⟨buf, h1, h2⟩ := except_bind_ok h
  obtain ⟨mv, h3, h4⟩ := except_bind_ok h2
  obtain ⟨w, h5, h6⟩ := bufView_part h3
  have h7 : w.Part (v.memory (if r = true then mv.toReadonly else mv)) := by
    refine h6.trans ?_
    split
    · exact (MView.readonly_part h6.fine).trans (memory_part (MView.readonly_part h6.fine).fine)
    · exact memory_part h6.fine
  generalize (if r = true then mv.toReadonly else mv) = mv' at h4 h7
  by_cases ht : t = true
  · simp only [if_pos ht] at h4
    obtain ⟨x, h8, h9⟩ := except_bind_ok h4
    cases h9
    exact ⟨buf, w, x, getBuf_ok h1, h5, h7.trans (MView.cast_part h8), rfl⟩
  · simp only [if_neg ht] at h4
    cases h4
    exact ⟨buf, w, _, getBuf_ok h1, h5, h7, rfl⟩

/-- Where the memory of a new buffer is of its own: what the source holds. -/
theorem source_copied {m m1 : Mem} {src : BufSource} {o : BufOptions} {data : BufData} {len : Nat}
    (hc : o.copyData = true ∨ ∃ n, src = .length n) (h : m.sourceData o src = .ok (m1, data, len)) :
    ∃ d, (m1, data, len) = m.copied o.readonly d ∧
      ((∃ n, src = .length n ∧ d = List.replicate n.toNat 0) ∨ (∃ i b, src = .block i ∧ m.blocks[i]? = some b ∧ d = b.data) ∨
        ∃ j v, src = .view j ∧ m.getView j = .ok v ∧ m.contents v = .ok d) := by
  cases src with
  | length n =>
    simp only [sourceData] at h
    split at h
    · rename_i hr
      cases h; exact ⟨_, by rw [hr]; rfl, .inl ⟨n, rfl, rfl⟩⟩
    · rename_i hr
      split at h
      · cases h
      · cases h
        have hr : o.readonly = false := by simpa using hr
        exact ⟨_, by rw [hr]; rfl, .inl ⟨n, rfl, rfl⟩⟩
  | block i =>
    have hc : o.copyData = true := hc.elim id (fun ⟨_, h⟩ => by cases h)
    obtain ⟨b, h1, h2⟩ := except_bind_ok h
    rw [if_pos hc] at h2
    cases h2
    exact ⟨_, rfl, .inr (.inl ⟨i, b, rfl, getBlock_ok h1, rfl⟩)⟩
  | view j =>
    have hc : o.copyData = true := hc.elim id (fun ⟨_, h⟩ => by cases h)
    obtain ⟨v, h1, h2⟩ := except_bind_ok h
    rw [if_pos hc] at h2
    obtain ⟨d, h3, h4⟩ := except_bind_ok h2
    cases h4
    exact ⟨_, rfl, .inr (.inr ⟨j, v, rfl, h1, h3⟩)⟩

/-- A new buffer with a copy. -/
theorem newBuf_copied {m m' : Mem} {src : BufSource} {o : BufOptions}
    (hc : o.copyData = true ∨ ∃ n, src = .length n) (h : m.newBuf src o = .ok m') :
    ∃ d max, d.length ≤ max ∧ m'.bufs = m.bufs ++ [⟨.block m.blocks.length, max, o.resizable || o.maxByteLength.isSome⟩] ∧
      m'.blocks = m.blocks ++ [⟨if o.readonly then .bytes else .bytearray, d⟩] ∧ m'.views = m.views ∧
      ((∃ n, src = .length n ∧ d = List.replicate n.toNat 0) ∨ (∃ i b, src = .block i ∧ m.blocks[i]? = some b ∧ d = b.data) ∨
        ∃ j v, src = .view j ∧ m.getView j = .ok v ∧ m.contents v = .ok d) := by
  obtain ⟨m1, data, len, h1, h2, rfl⟩ := newBuf_inv h
  obtain ⟨d, h3, h4⟩ := source_copied hc h1
  cases h3
  exact ⟨d, _, by omega, rfl, rfl, rfl, h4⟩

end Mem

end V8
