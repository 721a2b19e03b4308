import Mathlib.Tactic.SplitIfs
import Verif.Proofs.Memory

/-!
# C68: array buffers and memory that is shared

`Model/Memory` has the calls on Python's memory objects, memoryviews and JSArrayBuffers as a state machine; all theorems are
about the states after any sequence of calls.
-/

namespace V8.Props
open V8 V8.Spec

/-- The objects after some calls. -/
abbrev after (es : List MemEvent) : Mem := Mem.empty.run es

theorem after_ok (es : List MemEvent) : (after es).Ok := Mem.run_ok Mem.empty_ok es

/-- Copying, nothing else. -/
def copying : BufOptions := ⟨none, false, true, false⟩
/-- `copy_data=False` -/
def wrapping : BufOptions := ⟨none, false, false, false⟩

/-! ## Memory safety -/

/-- **C68.** A memoryview that was not released lies within the memory of an object that exists, whatever calls were
made: no buffer is resized under a memoryview. -/
theorem C68_in_bounds (es : List MemEvent) (j : Nat) (v : MView) (hv : (after es).views[j]? = some v) (hl : v.live = true) :
    ∃ b, (after es).blocks[v.block]? = some b ∧ v.off + v.len ≤ b.data.length := by
  obtain ⟨b, h1, -, h2⟩ := (after_ok es).view j v hv
  exact ⟨b, h1, h2 hl⟩

/-- **C68.** A buffer never shows more bytes than its `max_byte_length`, which stays what it was, even if the bytearray it
shares grows. -/
theorem C68_max (es later : List MemEvent) (b : Nat) (buf : SBuf) (hb : (after es).bufs[b]? = some buf) (d : Bytes)
    (hd : ((after es).run later).exposed b = .ok d) :
    ((after es).run later).bufs[b]? = some buf ∧ d.length ≤ buf.max := by
  have hb' := Mem.run_bufs (after_ok es) later hb
  refine ⟨hb', ?_⟩
  have hok := Mem.run_ok (after_ok es) later
  cases hdata : buf.data with
  | block i =>
    obtain ⟨blk, h1, -⟩ := hok.buf b buf hb' i hdata
    rw [Mem.exposed_block hb' hdata h1] at hd
    cases hd
    rw [List.length_take]
    omega
  | view j =>
    obtain ⟨h1, -⟩ := hok.bufView b buf hb' j hdata
    obtain ⟨v, hv⟩ : ∃ v, ((after es).run later).views[j]? = some v := ⟨_, List.getElem?_eq_getElem h1⟩
    cases hl : v.live with
    | false => rw [Mem.exposed_released hb' hdata hv hl] at hd; cases hd
    | true =>
      obtain ⟨blk, h2, -⟩ := hok.view j v hv
      rw [Mem.exposed_view hb' hdata hv hl h2] at hd
      cases hd
      rw [List.length_take]
      omega

/-! ## Resizing -/

/-- **C68.** `resize(n)` of a resizable buffer within its limit changes its length, unless a memoryview of its memory
exists: then it raises BufferError.  It keeps the bytes that remain, and new bytes are zero. -/
theorem C68_resize (es : List MemEvent) (b : Nat) (buf : SBuf) (hb : (after es).bufs[b]? = some buf)
    (hr : buf.resizable = true) (n : Int) (h0 : 0 ≤ n) (hn : n ≤ buf.max) :
    ∃ i blk, buf.data = .block i ∧ (after es).blocks[i]? = some blk ∧ blk.kind = .bytearray ∧
      (((n = blk.data.length ∨ ∀ (j : Nat) (v : MView), (after es).views[j]? = some v → v.live = true → v.block ≠ i) →
          ∃ m' d, (after es).call (.resize b n) = .ok m' ∧ (after es).exposed b = .ok d ∧
            m'.exposed b = .ok ((d ++ List.replicate n.toNat 0).take n.toNat) ∧ m'.views = (after es).views ∧
            m'.bufs = (after es).bufs ∧ ∀ i', i' ≠ i → m'.blocks[i']? = (after es).blocks[i']?) ∧
        ((n ≠ blk.data.length ∧ ∃ (j : Nat) (v : MView), (after es).views[j]? = some v ∧ v.live = true ∧ v.block = i) →
          (after es).call (.resize b n) = .error .bufferError)) := by
  have hok := after_ok es
  generalize after es = m at *
  cases hd : buf.data with
  | view j => rw [(hok.bufView b buf hb j hd).2] at hr; cases hr
  | block i =>
    obtain ⟨blk, hi, hk⟩ := hok.buf b buf hb i hd
    have hk := hk hr
    have hlt := (List.getElem?_eq_some_iff.mp hi).1
    refine ⟨i, blk, rfl, hi, hk, ?_⟩
    have hg : m.getBuf b = .ok buf := by simp [Mem.getBuf, hb]
    have hgb : m.getBlock i = .ok blk := by simp [Mem.getBlock, hi]
    have hcall : m.call (.resize b n) = m.setData i ((blk.data ++ List.replicate n.toNat 0).take n.toNat) := by
      show m.resizeBuf b n = _
      unfold Mem.resizeBuf
      rw [hg]
      show (if buf.resizable = false then _ else if ¬ (0 ≤ n ∧ n ≤ (buf.max : Int)) then _ else _) = _
      rw [if_neg (by simp [hr]), if_neg (by simp [h0, hn]), hd]
      show (m.getBlock i >>= _) = _
      rw [hgb]
      show (if blk.kind ≠ .bytearray then _ else if n > blk.data.length then _ else _) = _
      rw [if_neg (by simp [hk])]
      by_cases hlong : n > blk.data.length
      · rw [if_pos hlong, List.take_append, List.take_of_length_le (by omega), List.take_replicate,
          Nat.min_eq_left (by omega)]
      · rw [if_neg hlong, List.take_append_of_le_length (by omega)]
    generalize hnew : (blk.data ++ List.replicate n.toNat 0).take n.toNat = new at hcall
    have hlen : new.length = n.toNat := by
      rw [← hnew, List.length_take, List.length_append, List.length_replicate]; omega
    constructor
    · intro h
      have hset : m.setData i new = .ok { m with blocks := m.blocks.set i { blk with data := new } } := by
        unfold Mem.setData
        rw [hgb]
        show (if blk.data.length ≠ new.length ∧ m.exported i = true then _ else _) = _
        rw [if_neg]
        rintro ⟨h1, h2⟩
        rcases h with h | h
        · omega
        · unfold Mem.exported at h2
          rw [List.any_eq_true] at h2
          obtain ⟨v, hv, h3⟩ := h2
          obtain ⟨j, hj⟩ := List.getElem?_of_mem hv
          simp only [Bool.and_eq_true, beq_iff_eq] at h3
          exact h j v hj h3.1 h3.2
      refine ⟨_, _, hcall.trans hset, Mem.exposed_block hb hd hi, ?_, rfl, rfl, ?_⟩
      · rw [Mem.exposed_block (m := { m with blocks := m.blocks.set i { blk with data := new } }) hb hd
          (List.getElem?_set_self hlt)]
        show Except.ok (new.take buf.max) = _
        rw [List.take_of_length_le (by omega), ← hnew]
        congr 1
        by_cases hlong : blk.data.length ≤ buf.max
        · rw [List.take_of_length_le hlong]
        · rw [List.take_append_of_le_length (by omega), List.take_append_of_le_length (by rw [List.length_take]; omega),
            List.take_take]
          congr 1
          omega
      · intro i' hi'
        exact List.getElem?_set_ne (Ne.symm hi')
    · rintro ⟨h1, j, v, h2, h3, h4⟩
      rw [hcall]
      unfold Mem.setData
      rw [hgb]
      show (if blk.data.length ≠ new.length ∧ m.exported i = true then _ else _) = _
      rw [if_pos]
      refine ⟨by omega, ?_⟩
      unfold Mem.exported
      rw [List.any_eq_true]
      exact ⟨v, List.mem_of_getElem? h2, by simp [h3, h4]⟩

/-- A resizable buffer of 2 bytes with a memoryview of it: resizing is refused until it is released. -/
example : let es : List MemEvent := [.newBuf (.length 2) ⟨some 8, false, true, false⟩, .bufData 0]
    (after es).call (.resize 0 4) = .error .bufferError ∧ (after es).call (.resize 0 9) = .error .jsArrayBufferError ∧
      (after (es ++ [.setItem 0 1 [7], .release 0, .resize 0 4])).exposed 0 = .ok [0, 7, 0, 0] := by decide +kernel

/-! ## Copies -/

/-- What a buffer is made from holds these bytes. -/
def sourceBytes (m : Mem) : BufSource → Except MemErr Bytes
  | .length n => .ok (List.replicate n.toNat 0)
  | .block i => do
    let b ← m.getBlock i
    .ok b.data
  | .view j => do
    let v ← m.getView j
    m.contents v

/-- **C68.** A buffer made with `copy_data` (the default) starts with the bytes of the source, and keeps them whatever is done
to any other object, the source included, as long as nothing is written through the buffer itself, through what was made of it,
and it is not resized.  (Its bytearray is private.) -/
theorem C68_isolated (es later : List MemEvent) (src : BufSource) (o : BufOptions)
    (hc : o.copyData = true ∨ ∃ n, src = .length n) (m' : Mem) (hnew : (after es).call (.newBuf src o) = .ok m')
    (hu : Untouched (after es).blocks.length m' ⟨[], [(after es).bufs.length]⟩ later) :
    (m'.run later).exposed (after es).bufs.length = sourceBytes (after es) src ∧
      m'.exposed (after es).bufs.length = sourceBytes (after es) src ∧ ∃ d, sourceBytes (after es) src = .ok d := by
  have hok := after_ok es
  generalize after es = m at *
  have hok' : m'.Ok := (Mem.call_effect hok hnew).ok hok
  obtain ⟨d, max, h1, h2, h3, h4, h5⟩ := Mem.newBuf_copied hc hnew
  have hb : m'.bufs[m.bufs.length]? = some ⟨.block m.blocks.length, max, o.resizable || o.maxByteLength.isSome⟩ := by
    rw [h2]; simp
  have hblk : m'.blocks[m.blocks.length]? = some ⟨if o.readonly then .bytes else .bytearray, d⟩ := by
    rw [h3]; simp
  have hsrc : sourceBytes m src = .ok d := by
    rcases h5 with ⟨n, rfl, rfl⟩ | ⟨i, b, rfl, h6, rfl⟩ | ⟨j, v, rfl, h6, h7⟩
    · rfl
    · show (m.getBlock i >>= fun b => Except.ok b.data) = _
      rw [show m.getBlock i = .ok b by simp [Mem.getBlock, h6]]
      rfl
    · show (m.getView j >>= fun v => m.contents v) = _
      rw [h6]
      exact h7
  have hp : Mem.Private m' m.blocks.length ⟨[], [m.bufs.length]⟩ := by
    constructor
    · intro j v hv hi
      rw [h4] at hv
      obtain ⟨b, h6, -⟩ := hok.view j v hv
      rw [hi] at h6
      exact absurd (List.getElem?_eq_some_iff.mp h6).1 (Nat.lt_irrefl _)
    · intro b' buf hb' hi
      rw [h2] at hb'
      rcases Mem.get_append hb' with hb' | ⟨rfl, -⟩
      · rcases hi with hi | ⟨j, v, -, hv, hi⟩
        · obtain ⟨blk, h6, -⟩ := hok.buf b' buf hb' _ hi
          exact absurd (List.getElem?_eq_some_iff.mp h6).1 (Nat.lt_irrefl _)
        · rw [h4] at hv
          obtain ⟨b, h6, -⟩ := hok.view j v hv
          rw [hi] at h6
          exact absurd (List.getElem?_eq_some_iff.mp h6).1 (Nat.lt_irrefl _)
      · exact List.mem_singleton.mpr rfl
  rw [hsrc]
  refine ⟨?_, ?_, d, rfl⟩
  · rw [Mem.exposed_block (Mem.run_bufs hok' later hb) rfl (hp.run hok' hblk later hu)]
    show Except.ok (d.take max) = _
    rw [List.take_of_length_le h1]
  · rw [Mem.exposed_block hb rfl hblk]
    show Except.ok (d.take max) = _
    rw [List.take_of_length_le h1]

/-- A bytearray is copied, then changed, and a copy of a part of the buffer is written to. -/
example : let es : List MemEvent := [.newBytearray [1, 2, 3], .view 0]
    let m' := (after es).step (.newBuf (.view 0) copying)
    Untouched 1 m' ⟨[], [0]⟩ [.setItem 0 0 [9], .bufData 0, .slice 1 1 3, .newBuf (.view 2) copying, .bufData 1, .setItem 3 0 [8]] ∧
      (m'.run [.setItem 0 0 [9], .bufData 0, .slice 1 1 3, .newBuf (.view 2) copying, .bufData 1, .setItem 3 0 [8]]).exposed 0 =
        .ok [1, 2, 3] := by
  refine ⟨?_, by decide +kernel⟩
  simp only [Untouched]
  decide +kernel

/-! ## Shared memory -/

/-- **C68.** A buffer made of a bytes or bytearray object without copying shows the bytes of that object, at all times, up to
its `max_byte_length`; at first, all of them. -/
theorem C68_shared_partial (es later : List MemEvent) (i : Nat) (o : BufOptions) (b : Block)
    (hb : (after es).blocks[i]? = some b) (hk : ∀ k, b.kind ≠ .array k) (hc : o.copyData = false)
    (hr : o.readonly = false ∨ b.kind = .bytes) (m' : Mem) (hnew : (after es).call (.newBuf (.block i) o) = .ok m') :
    m'.exposed (after es).bufs.length = .ok b.data ∧
      ∃ b' max, (m'.run later).blocks[i]? = some b' ∧ b.data.length ≤ max ∧
        (m'.run later).exposed (after es).bufs.length = .ok (b'.data.take max) := by
  have hok := after_ok es
  generalize after es = m at *
  have hok' : m'.Ok := (Mem.call_effect hok hnew).ok hok
  obtain ⟨m1, data, len, h1, h2, rfl⟩ := Mem.newBuf_inv hnew
  obtain ⟨b1, h3, h4⟩ := except_bind_ok h1
  have h3 := Mem.getBlock_ok h3
  rw [hb] at h3; cases h3
  rw [if_neg (by simp [hc]), if_neg (by rcases hr with hr | hr <;> simp [hr])] at h4
  cases h4
  have hs : b.size = b.data.length := by
    unfold Block.size
    split
    · rename_i k h; exact absurd h (hk k)
    · rfl
  have hle : b.data.length ≤ (o.limit b.size).toNat := by omega
  have hbuf : (m.addBuf ⟨.block i, (o.limit b.size).toNat, o.resizable || o.maxByteLength.isSome⟩).bufs[m.bufs.length]? =
      some ⟨.block i, (o.limit b.size).toNat, o.resizable || o.maxByteLength.isSome⟩ := by simp [Mem.addBuf]
  constructor
  · rw [Mem.exposed_block hbuf rfl (show m.blocks[i]? = some b from hb)]
    show Except.ok (b.data.take (o.limit b.size).toNat) = _
    rw [List.take_of_length_le hle]
  · obtain ⟨b', h5, -⟩ := Mem.run_kind hok' later (i := i) (b := b) hb
    exact ⟨b', _, h5, hle, Mem.exposed_block (Mem.run_bufs hok' later hbuf) rfl h5⟩

/-- Written through the bytearray, and through the buffer. -/
example : let es : List MemEvent := [.newBytearray [1, 2, 3], .newBuf (.block 0) wrapping, .setByte 0 0 9, .bufData 0,
      .setItem 0 1 [8]]
    (after es).exposed 0 = .ok [9, 8, 3] ∧ (after es).blocks = [⟨.bytearray, [9, 8, 3]⟩] := by decide +kernel

/-- **C68.** A buffer made of a memoryview of bytes without copying shows what the memoryview showed, at all times until it is
closed, whether or not the memoryview given is released. -/
theorem C68_shared_view_partial (es later : List MemEvent) (j : Nat) (o : BufOptions) (v : MView)
    (hv : (after es).getView j = .ok v) (hsize : v.itemsize = 1) (hc : o.copyData = false) (m' : Mem)
    (hnew : (after es).call (.newBuf (.view j) o) = .ok m')
    (hlater : ∀ e ∈ later, e ≠ .release (after es).views.length ∧ e ≠ .close (after es).bufs.length) :
    ∃ b', (m'.run later).blocks[v.block]? = some b' ∧
      (m'.run later).exposed (after es).bufs.length = .ok ((b'.data.drop v.off).take v.len) := by
  have hok := after_ok es
  generalize after es = m at *
  have hok' : m'.Ok := (Mem.call_effect hok hnew).ok hok
  obtain ⟨m1, data, len, h1, h2, rfl⟩ := Mem.newBuf_inv hnew
  obtain ⟨v1, h3, h4⟩ := except_bind_ok h1
  rw [hv] at h3; cases h3
  obtain ⟨hv, hlive⟩ := Mem.getView_ok hv
  rw [if_neg (by simp [hc])] at h4
  have hs : v.size = v.len := by unfold MView.size; rw [hsize, Nat.div_one]
  rw [hs] at h4
  obtain ⟨b, hblk, -⟩ := hok.view j v hv
  have key : ∀ w : MView, w.block = v.block → w.off = v.off → w.len = v.len → w.live = true →
      (m1, data, len) = (m.addView w, .view m.views.length, v.len) →
      ∃ b', ((m1.addBuf ⟨data, (o.limit len).toNat, o.resizable || o.maxByteLength.isSome⟩).run later).blocks[v.block]? = some b' ∧
        ((m1.addBuf ⟨data, (o.limit len).toNat, o.resizable || o.maxByteLength.isSome⟩).run later).exposed m.bufs.length =
          .ok ((b'.data.drop v.off).take v.len) := by
    intro w hw1 hw2 hw3 hw4 heq
    cases heq
    obtain ⟨b', h5, -⟩ := Mem.run_kind hok' later (i := v.block) (b := b) hblk
    refine ⟨b', h5, ?_⟩
    have hw := Mem.run_owned hok' later (j := m.views.length) (b := m.bufs.length) (v := w) (by simp [Mem.addView, Mem.addBuf])
      (by
        intro b0 buf h6 h7
        rcases Mem.get_append h6 with h6 | ⟨h6, -⟩
        · exact absurd (hok.bufView b0 buf h6 _ h7).1 (Nat.lt_irrefl _)
        · exact h6) hlater
    have hbuf := Mem.run_bufs hok' later (b := m.bufs.length)
      (buf := ⟨.view m.views.length, (o.limit v.len).toNat, o.resizable || o.maxByteLength.isSome⟩) (by simp [Mem.addBuf, Mem.addView])
    rw [Mem.exposed_view hbuf rfl hw hw4 (hw1 ▸ h5), hw2, hw3]
    show Except.ok (List.take (o.limit v.len).toNat _) = _
    rw [List.take_of_length_le]
    rw [List.length_take]
    omega
  split at h4
  · exact key v.toReadonly rfl rfl rfl hlive (Except.ok.inj h4).symm
  · exact key v rfl rfl rfl hlive (Except.ok.inj h4).symm

/-- The memoryview given is released, and the bytearray written to; the bytearray cannot change its length. -/
example : let es : List MemEvent := [.newBytearray [1, 2, 3, 4], .view 0, .slice 0 1 3, .newBuf (.view 1) wrapping, .release 0,
      .release 1, .setByte 0 2 9]
    (after es).exposed 0 = .ok [2, 9] ∧ (after es).call (.extend 0 [5]) = .error .bufferError ∧
      (after (es ++ [.close 0, .extend 0 [5]])).blocks = [⟨.bytearray, [1, 2, 9, 4, 5]⟩] := by decide +kernel

/-- **C68.** Not so for objects whose items are longer than a byte: without copying, a buffer made of an `array.array` with items
of `k` bytes shows as many *bytes* as there are *items*. -/
theorem C68_items (es : List MemEvent) (i : Nat) (o : BufOptions) (b : Block) (k : Nat)
    (hb : (after es).blocks[i]? = some b) (hk : b.kind = .array k) (hc : o.copyData = false) (hr : o.readonly = false)
    (hmax : o.maxByteLength = none) (m' : Mem) (hnew : (after es).call (.newBuf (.block i) o) = .ok m') :
    m'.exposed (after es).bufs.length = .ok (b.data.take (b.data.length / k)) := by
  have hok := after_ok es
  generalize after es = m at *
  obtain ⟨m1, data, len, h1, h2, rfl⟩ := Mem.newBuf_inv hnew
  obtain ⟨b1, h3, h4⟩ := except_bind_ok h1
  have h3 := Mem.getBlock_ok h3
  rw [hb] at h3; cases h3
  rw [if_neg (by simp [hc]), if_neg (by simp [hr])] at h4
  cases h4
  have hs : b.size = b.data.length / k := by
    unfold Block.size
    rw [hk]
  have hl : (o.limit b.size).toNat = b.data.length / k := by
    unfold BufOptions.limit
    rw [hmax, hs]
    exact Int.toNat_natCast _
  rw [hl]
  exact Mem.exposed_block (buf := ⟨.block i, b.data.length / k, o.resizable || o.maxByteLength.isSome⟩) (by simp [Mem.addBuf]) rfl
    (show m.blocks[i]? = some b from hb)

/-- `JSArrayBuffer(array("I", [1, 2]), copy_data=False)` has 2 bytes of 8, and with copying all of them. -/
example : (after [.newArray 4 [1, 0, 0, 0, 2, 0, 0, 0], .newBuf (.block 0) wrapping, .newBuf (.block 0) copying]).exposed 0 =
      .ok [1, 0] ∧
    (after [.newArray 4 [1, 0, 0, 0, 2, 0, 0, 0], .newBuf (.block 0) wrapping, .newBuf (.block 0) copying]).exposed 1 =
      .ok [1, 0, 0, 0, 2, 0, 0, 0] := by decide +kernel

/-! ## Buffers that are read only -/

/-- **C68.** The bytes of a buffer with `readonly=True` never change if they were copied or are those of a bytes object, whatever
calls follow. -/
theorem C68_constant (es later : List MemEvent) (src : BufSource) (o : BufOptions) (hr : o.readonly = true)
    (hc : o.copyData = true ∨ (∃ n, src = .length n) ∨ ∃ i b, src = .block i ∧ (after es).blocks[i]? = some b ∧ b.kind = .bytes)
    (m' : Mem) (hnew : (after es).call (.newBuf src o) = .ok m') :
    (m'.run later).exposed (after es).bufs.length = m'.exposed (after es).bufs.length ∧
      ∃ d, m'.exposed (after es).bufs.length = .ok d := by
  have hok := after_ok es
  generalize after es = m at *
  have hok' : m'.Ok := (Mem.call_effect hok hnew).ok hok
  have key : ∀ (i : Nat) (blk : Block) (buf : SBuf), m'.blocks[i]? = some blk → blk.kind = .bytes →
      m'.bufs[m.bufs.length]? = some buf → buf.data = .block i →
      (m'.run later).exposed m.bufs.length = m'.exposed m.bufs.length ∧ ∃ d, m'.exposed m.bufs.length = .ok d := by
    intro i blk buf h1 h2 h3 h4
    rw [Mem.exposed_block h3 h4 h1]
    exact ⟨Mem.exposed_block (Mem.run_bufs hok' later h3) h4 (Mem.run_bytes hok' later h1 h2), _, rfl⟩
  have hcopy : (o.copyData = true ∨ ∃ n, src = .length n) → (m'.run later).exposed m.bufs.length = m'.exposed m.bufs.length ∧
      ∃ d, m'.exposed m.bufs.length = .ok d := by
    intro hc
    obtain ⟨d, max, h1, h2, h3, h4, h5⟩ := Mem.newBuf_copied hc hnew
    exact key m.blocks.length ⟨.bytes, d⟩ ⟨.block m.blocks.length, max, o.resizable || o.maxByteLength.isSome⟩
      (by rw [h3, hr]; simp) rfl (by rw [h2]; simp) rfl
  rcases hc with hc | hc | ⟨i, b, rfl, hb, hk⟩
  · exact hcopy (.inl hc)
  · exact hcopy (.inr hc)
  · by_cases hcp : o.copyData = true
    · exact hcopy (.inl hcp)
    · obtain ⟨m1, data, len, h1, h2, rfl⟩ := Mem.newBuf_inv hnew
      obtain ⟨b1, h3, h4⟩ := except_bind_ok h1
      have h3 := Mem.getBlock_ok h3
      rw [hb] at h3; cases h3
      rw [if_neg hcp, if_neg (by simp [hk])] at h4
      cases h4
      exact key i b ⟨.block i, (o.limit b.size).toNat, o.resizable || o.maxByteLength.isSome⟩ hb hk (by simp [Mem.addBuf]) rfl

/-- **C68.** Memoryviews got from a buffer with `readonly=True`, and from views on it, cannot be written to, whatever
happened before. -/
theorem C68_readonly (es later : List MemEvent) (src : BufSource) (o : BufOptions) (hr : o.readonly = true)
    (m' : Mem) (hnew : (after es).call (.newBuf src o) = .ok m') (e : MemEvent)
    (he : e = .bufData (after es).bufs.length ∨ ∃ v r t, e = .access (after es).bufs.length v r t) (m'' : Mem)
    (hcall : (m'.run later).call e = .ok m'') :
    ∃ w, m''.views = (m'.run later).views ++ [w] ∧ w.readonly = true ∧
      ∀ pos bs, m''.call (.setItem (m'.run later).views.length pos bs) = .error .typeError := by
  have hok := after_ok es
  generalize after es = m at *
  have hok' : m'.Ok := (Mem.call_effect hok hnew).ok hok
  have hokl := Mem.run_ok hok' later
  have hbehind : ∀ buf w, (m'.run later).bufs[m.bufs.length]? = some buf → Mem.Behind (m'.run later) buf.data w →
      w.readonly = true ∧ w.live = true := by
    intro buf w hb hw
    obtain ⟨m1, data, len, h1, h2, rfl⟩ := Mem.newBuf_inv hnew
    have hb0 := Mem.run_bufs hok' later (b := m.bufs.length)
      (buf := ⟨data, (o.limit len).toNat, o.resizable || o.maxByteLength.isSome⟩)
    have hlen : m1.bufs = m.bufs := Mem.source_bufs h1
    have hb0 := hb0 (by simp [Mem.addBuf, hlen])
    rw [hb] at hb0
    cases hb0
    have hblock : ∀ (i : Nat) (blk : Block), data = .block i → m1.blocks[i]? = some blk → blk.kind = .bytes →
        w.readonly = true ∧ w.live = true := by
      intro i blk hd hi hk
      subst hd
      have := Mem.run_bytes hok' later (i := i) (b := blk) hi hk
      generalize hd : BufData.block i = d at hw
      cases hw with
      | view => cases hd
      | block h6 =>
        cases hd
        rw [this] at h6; cases h6
        exact ⟨Block.view_readonly _ _ hk, Block.view_live _ _⟩
    have hview : ∀ (j : Nat) (v : MView), data = .view j → m1.views[j]? = some v → v.readonly = true →
        w.readonly = true ∧ w.live = true := by
      intro j v hd hj hro
      subst hd
      obtain ⟨l, h6, -⟩ := Mem.run_views hok' later (j := j) (v := v) hj
      generalize hd : BufData.view j = d at hw
      cases hw with
      | block => cases hd
      | view h7 h8 =>
        cases hd
        rw [h6] at h7; cases h7
        exact ⟨hro, h8⟩
    cases src with
    | length n =>
      simp only [Mem.sourceData] at h1
      rw [if_pos hr] at h1
      cases h1
      exact hblock _ ⟨.bytes, List.replicate n.toNat 0⟩ rfl (by simp [Mem.addBlock]) rfl
    | block i =>
      obtain ⟨b1, h3, h4⟩ := except_bind_ok h1
      split at h4
      · cases h4
        exact hblock _ ⟨.bytes, b1.data⟩ rfl (by simp [Mem.addBlock, hr]) rfl
      · split at h4
        · cases h4
          exact hview _ (b1.view i).toReadonly rfl (by simp [Mem.addView]) rfl
        · rename_i hk
          cases h4
          refine hblock i b1 rfl (Mem.getBlock_ok h3) ?_
          by_cases hk' : b1.kind = .bytes
          · exact hk'
          · exact absurd ⟨hr, hk'⟩ hk
    | view j =>
      obtain ⟨v1, h3, h4⟩ := except_bind_ok h1
      split at h4
      · obtain ⟨d, -, h5⟩ := except_bind_ok h4
        cases h5
        exact hblock _ ⟨.bytes, d⟩ rfl (by simp [Mem.addBlock, hr]) rfl
      · cases h4
        exact hview _ v1.toReadonly rfl (by simp [Mem.addView]) rfl
  have hread : ∀ (m0 : Mem) (x : MView), x.readonly = true → x.live = true → ∀ pos bs,
      (m0.addView x).call (.setItem m0.views.length pos bs) = .error .typeError := by
    intro m0 x h1 h2 pos bs
    show (m0.addView x).setItem m0.views.length pos bs = _
    unfold Mem.setItem
    rw [show (m0.addView x).getView m0.views.length = .ok x by simp [Mem.getView, Mem.addView, h2]]
    show (if x.readonly = true then Except.error MemErr.typeError else _) = _
    rw [if_pos h1]
  have hview : ∃ buf w x, (m'.run later).bufs[m.bufs.length]? = some buf ∧ Mem.Behind (m'.run later) buf.data w ∧ w.Part x ∧
      m'' = (m'.run later).addView x := by
    rcases he with rfl | ⟨v, r, t, rfl⟩
    · obtain ⟨buf, h1, h2⟩ := except_bind_ok hcall
      obtain ⟨x, h3, h4⟩ := except_bind_ok h2
      cases h4
      obtain ⟨w, h5, h6⟩ := Mem.bufView_part h3
      exact ⟨buf, w, x, Mem.getBuf_ok h1, h5, h6, rfl⟩
    · exact Mem.accessBuf_ok hcall
  obtain ⟨buf, w, x, h0, h1, h2, rfl⟩ := hview
  obtain ⟨h3, h4⟩ := hbehind buf w h0 h1
  exact ⟨x, rfl, h2.readonly h3, hread _ x (h2.readonly h3) (h2.live.trans h4)⟩

/-- A memoryview of a buffer that copied bytes; writing to it fails. -/
example : let es : List MemEvent := [.newBytearray [1, 2, 3], .newBuf (.block 0) ⟨none, false, true, true⟩, .bufData 0]
    (after es).views = [⟨1, 0, 3, 1, true, true⟩] ∧ (after es).call (.setItem 0 0 [9]) = .error .typeError := by decide +kernel

/-- **C68.** Read only is not constant: a buffer with `readonly=True` of a bytearray that was not copied changes with the
bytearray, whose length cannot change any more as long as the buffer is open. -/
theorem C68_readonly_shared :
    let es : List MemEvent := [.newBytearray [1, 2, 3], .newBuf (.block 0) ⟨none, false, false, true⟩]
    (after es).exposed 0 = .ok [1, 2, 3] ∧ (after (es ++ [.setByte 0 0 9])).exposed 0 = .ok [9, 2, 3] ∧
      (after es).call (.extend 0 [4]) = .error .bufferError ∧
      ∃ m', (after (es ++ [.close 0])).call (.extend 0 [4]) = .ok m' :=
  ⟨by decide +kernel, by decide +kernel, by decide +kernel, _, rfl⟩

/-! ## Writing -/

/-- **C68.** Assigning to an item of a memoryview that can be written replaces the bytes of this item among those the memoryview
shows, and no others: neither of the same object nor of any other. -/
theorem C68_write (es : List MemEvent) (j : Nat) (v : MView) (hv : (after es).getView j = .ok v) (hw : v.readonly = false)
    (pos : Nat) (bs : Bytes) (hp : (pos + 1) * v.itemsize ≤ v.len) (hbs : bs.length = v.itemsize) :
    ∃ m' d b b', (after es).call (.setItem j pos bs) = .ok m' ∧ (after es).contents v = .ok d ∧ d.length = v.len ∧
      m'.contents v = .ok (d.take (pos * v.itemsize) ++ bs ++ d.drop ((pos + 1) * v.itemsize)) ∧
      m'.views = (after es).views ∧ m'.bufs = (after es).bufs ∧
      (∀ i, i ≠ v.block → m'.blocks[i]? = (after es).blocks[i]?) ∧
      (after es).blocks[v.block]? = some b ∧ m'.blocks[v.block]? = some b' ∧ b'.kind = b.kind ∧
      b'.data.take v.off = b.data.take v.off ∧ b'.data.drop (v.off + v.len) = b.data.drop (v.off + v.len) := by
  have hok := after_ok es
  generalize after es = m at *
  obtain ⟨hj, hlive⟩ := Mem.getView_ok hv
  obtain ⟨b, hb, -, hin⟩ := hok.view j v hj
  have hin := hin hlive
  have hk := (hok.fine j v hj).size
  have hgb : m.getBlock v.block = .ok b := by simp [Mem.getBlock, hb]
  have hlt : v.block < m.blocks.length := (List.getElem?_eq_some_iff.mp hb).1
  have hmul : (pos + 1) * v.itemsize = pos * v.itemsize + v.itemsize := Nat.succ_mul _ _
  have hsize : ¬ pos ≥ v.size := by
    unfold MView.size
    have := (Nat.le_div_iff_mul_le hk).2 hp
    omega
  obtain ⟨q, hq⟩ : ∃ q, q = pos * v.itemsize := ⟨_, rfl⟩
  rw [hmul] at hp ⊢
  rw [← hq] at hp ⊢
  have hlen : (overwrite b.data (v.off + q) bs).length = b.data.length := by
    unfold overwrite
    simp only [List.length_append, List.length_take, List.length_drop]
    omega
  have hcall : m.call (.setItem j pos bs) = .ok { m with blocks := m.blocks.set v.block ⟨b.kind, overwrite b.data (v.off + q) bs⟩ } := by
    show m.setItem j pos bs = _
    unfold Mem.setItem
    rw [hv]
    show (if v.readonly = true then _ else _) = _
    rw [if_neg (by simp [hw]), if_neg hsize, if_neg (by omega), hgb]
    show m.setData v.block (overwrite b.data (v.off + pos * v.itemsize) bs) = _
    unfold Mem.setData
    rw [hgb]
    show (if _ then _ else _) = _
    rw [if_neg (by rw [← hq, hlen]; simp), ← hq]
  refine ⟨_, (b.data.drop v.off).take v.len, b, ⟨b.kind, overwrite b.data (v.off + q) bs⟩, hcall, ?_, ?_, ?_, rfl, rfl, ?_, hb,
    ?_, rfl, ?_, ?_⟩
  · unfold Mem.contents; rw [hgb]; rfl
  · simp only [List.length_take, List.length_drop]; omega
  · unfold Mem.contents Mem.getBlock
    rw [show (m.blocks.set v.block ⟨b.kind, overwrite b.data (v.off + q) bs⟩)[v.block]? = some ⟨b.kind, overwrite b.data (v.off + q) bs⟩
      from List.getElem?_set_self hlt]
    show Except.ok (((overwrite b.data (v.off + q) bs).drop v.off).take v.len) = _
    congr 1
    apply List.ext_getElem?
    intro p
    unfold overwrite
    simp only [List.getElem?_take, List.getElem?_drop, List.getElem?_append, List.length_append, List.length_take,
      List.length_drop]
    split_ifs <;> first | rfl | omega | (congr 1; omega)
  · intro i hi; exact List.getElem?_set_ne (Ne.symm hi)
  · exact List.getElem?_set_self hlt
  · unfold overwrite
    rw [List.append_assoc, List.take_append_of_le_length (by rw [List.length_take]; omega), List.take_take]
    congr 1; omega
  · unfold overwrite
    rw [List.drop_append, List.drop_eq_nil_of_le (by simp only [List.length_append, List.length_take]; omega), List.nil_append,
      List.drop_drop]
    congr 1
    simp only [List.length_append, List.length_take]; omega

/-- The second item of a part of a bytearray, as items of two bytes. -/
example : let es : List MemEvent := [.newBytearray [1, 2, 3, 4, 5, 6, 7], .view 0, .slice 0 1 7, .cast 1 2]
    (after es).getView 2 = .ok ⟨0, 1, 6, 2, false, true⟩ ∧
      (after (es ++ [.setItem 2 1 [8, 9]])).blocks = [⟨.bytearray, [1, 2, 3, 8, 9, 6, 7]⟩] := by decide +kernel

/-! ## Closing -/

/-- **C68.** After `close()` of a buffer that holds a memoryview (one made without copying of a memoryview, or with
`readonly=True` of a bytearray), the buffer raises ValueError for ever, as its views do; all else is as before. -/
theorem C68_close (es later : List MemEvent) (b : Nat) (buf : SBuf) (hb : (after es).bufs[b]? = some buf) (j : Nat)
    (hd : buf.data = .view j) :
    ∃ m', (after es).call (.close b) = .ok m' ∧ m'.blocks = (after es).blocks ∧ m'.bufs = (after es).bufs ∧
      (∀ j', j' ≠ j → m'.views[j']? = (after es).views[j']?) ∧
      (m'.run later).exposed b = .error .valueError ∧
      (m'.run later).call (.bufData b) = .error .valueError ∧
      ∀ v r t, (m'.run later).call (.access b v r t) = .error .valueError := by
  have hok := after_ok es
  generalize after es = m at *
  obtain ⟨h1, -⟩ := hok.bufView b buf hb j hd
  obtain ⟨v, hv⟩ : ∃ v, m.views[j]? = some v := ⟨_, List.getElem?_eq_getElem h1⟩
  have hg : m.getBuf b = .ok buf := by simp [Mem.getBuf, hb]
  have hcall : m.call (.close b) = .ok { m with views := m.views.set j { v with live := false } } := by
    show m.closeBuf b = _
    unfold Mem.closeBuf
    rw [hg]
    show (match buf.data with
      | .view j => m.releaseView j
      | .block _ => .ok m) = _
    rw [hd]
    show m.releaseView j = _
    unfold Mem.releaseView
    rw [hv]
  have hok' := (Mem.call_effect hok hcall).ok hok
  refine ⟨_, hcall, rfl, rfl, fun j' hj => List.getElem?_set_ne (Ne.symm hj), ?_⟩
  have hb' := Mem.run_bufs hok' later (b := b) (buf := buf) hb
  obtain ⟨l, h2, h3⟩ := Mem.run_views hok' later (j := j) (v := { v with live := false }) (List.getElem?_set_self h1)
  cases h3 rfl
  refine ⟨Mem.exposed_released hb' hd h2 rfl, ?_⟩
  generalize Mem.run _ later = m' at *
  have hg' : m'.getBuf b = .ok buf := by simp [Mem.getBuf, hb']
  have hbv : m'.bufView buf = .error .valueError := by
    unfold Mem.bufView
    rw [hd]
    show ((m'.getView j >>= _) >>= _) = _
    rw [show m'.getView j = .error .valueError by simp [Mem.getView, h2]]
    rfl
  constructor
  · show (m'.getBuf b >>= fun buf => m'.bufView buf >>= _) = _
    rw [hg']
    show (m'.bufView buf >>= _) = _
    rw [hbv]
    rfl
  · intro v r t
    show (m'.getBuf b >>= fun buf => m'.bufView buf >>= _) = _
    rw [hg']
    show (m'.bufView buf >>= _) = _
    rw [hbv]
    rfl

/-- `close()` of a buffer with bytes of its own, or that shares a bytearray, does nothing. -/
theorem C68_close_plain (es : List MemEvent) (b : Nat) (buf : SBuf) (hb : (after es).bufs[b]? = some buf) (i : Nat)
    (hd : buf.data = .block i) : (after es).call (.close b) = .ok (after es) := by
  generalize after es = m at *
  show m.closeBuf b = _
  unfold Mem.closeBuf
  rw [show m.getBuf b = .ok buf by simp [Mem.getBuf, hb]]
  show (match buf.data with
    | .view j => m.releaseView j
    | .block _ => .ok m) = _
  rw [hd]

/-- A memoryview got before from the buffer stays in use, and keeps the length of the bytearray fixed. -/
example : let es : List MemEvent := [.newBytearray [1, 2, 3], .newBuf (.block 0) ⟨none, false, false, true⟩, .bufData 0, .close 0]
    (after es).exposed 0 = .error .valueError ∧ (after es).call (.extend 0 [4]) = .error .bufferError ∧
      (after (es ++ [.release 1, .extend 0 [4]])).blocks = [⟨.bytearray, [1, 2, 3, 4]⟩] := by decide +kernel

/-! ## Views -/

/-- **C68.** A view on a buffer that is not closed always gives a memoryview; it shows the bytes of the buffer that
`View.bytes` (C36) says, as items of the type of the view, and asking for one that is read only gives one. -/
theorem C68_view (es : List MemEvent) (b : Nat) (d : Bytes) (hd : (after es).exposed b = .ok d) (v : View) (r t : Bool) :
    ∃ m' w, (after es).call (.access b v r t) = .ok m' ∧ m'.views = (after es).views ++ [w] ∧
      m'.blocks = (after es).blocks ∧ m'.bufs = (after es).bufs ∧ m'.contents w = .ok (v.bytes d) ∧
      w.itemsize = (if t then v.tag.size else 1) ∧ w.itemsize ∣ w.len ∧ (r = true → w.readonly = true) := by
  have hok := after_ok es
  generalize after es = m at *
  obtain ⟨buf, mv, h1, h2, h3, h4, h5⟩ := Mem.exposed_inv hok hd
  have key : ∀ w : MView, w.itemsize = 1 → m.contents w = .ok d → d.length = w.len → (r = true → w.readonly = true) →
      ∃ m' x, (if t = true then (v.memory w).cast v.tag.size >>= fun el => Except.ok (m.addView el)
          else .ok (m.addView (v.memory w))) = .ok m' ∧ m'.views = m.views ++ [x] ∧ m'.blocks = m.blocks ∧ m'.bufs = m.bufs ∧
        m'.contents x = .ok (v.bytes d) ∧ x.itemsize = (if t then v.tag.size else 1) ∧ x.itemsize ∣ x.len ∧
        (r = true → x.readonly = true) := by
    intro w hw1 hw2 hw3 hw4
    have hc := Mem.memory_contents v hw1 hw2 hw3
    have hro : r = true → (v.memory w).readonly = true := by
      intro hr
      have hw := hw4 hr
      unfold View.memory
      simp only []
      split
      · split <;> exact hw
      · exact hw
    by_cases ht : t = true
    · have hcast : (v.memory w).cast v.tag.size = .ok { v.memory w with itemsize := v.tag.size } := by
        unfold MView.cast
        rw [if_neg (by rw [Mem.memory_size, hw1]; simp)]
        rw [if_neg]
        intro h
        rcases h with h | h
        · cases hv : v.tag <;> rw [hv] at h <;> cases h
        · exact h (Nat.mod_eq_zero_of_dvd (Mem.memory_items v w hw1))
      rw [if_pos ht, hcast]
      refine ⟨_, _, rfl, rfl, rfl, rfl, hc, by rw [if_pos ht], Mem.memory_items v w hw1, hro⟩
    · rw [if_neg ht]
      exact ⟨_, _, rfl, rfl, rfl, rfl, hc, by rw [if_neg ht, Mem.memory_size, hw1], by
        rw [Mem.memory_size, hw1]; exact Nat.one_dvd _, hro⟩
  show ∃ m' w, m.accessBuf b v r t = .ok m' ∧ _
  unfold Mem.accessBuf
  rw [h1]
  show ∃ m' w, (m.bufView buf >>= _) = Except.ok m' ∧ _
  rw [h2]
  by_cases hr : r = true
  · have := key mv.toReadonly h4 h3 h5 (fun _ => rfl)
    subst hr
    exact this
  · have := key mv h4 h3 h5 (fun h => absurd h hr)
    have hr : r = false := by simpa using hr
    subst hr
    exact this

/-- A `Uint16Array` at offset 2 of a buffer with 7 bytes: two items. -/
example : let es : List MemEvent := [.newBytearray [1, 2, 3, 4, 5, 6, 7], .newBuf (.block 0) copying,
      .access 0 ⟨.uint16, 1, none⟩ false true]
    (after es).views = [⟨1, 2, 4, 2, false, true⟩] ∧ View.bytes ⟨.uint16, 1, none⟩ [1, 2, 3, 4, 5, 6, 7] = [3, 4, 5, 6] := by
  decide +kernel

end V8.Props
