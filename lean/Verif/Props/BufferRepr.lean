import Verif.Proofs.BufferRepr

/-!
# C85: `repr()` of buffers and views is an expression for an equal one
-/

namespace V8.Props

open V8.BufRepr V8.Spec.BufRepr

/-- The default settings. -/
def exampleSettings : Settings := ⟨30, 6, none⟩

/-- **C85**: the text of bytes that are short enough to be shown in full evaluates to these bytes. -/
theorem C85_bytes (s : Settings) (b : Bytes) (h : b.length ≤ s.maxstring) :
    evalText (reprBytes s b none) = .value (.raw (.bytes b)) := by
  rw [reprBytes_short s b h, (good_pyBytes b).length (by omega)]
  rfl

example : (reprBytes exampleSettings [0x27, 0x5c, 0x0a, 0xff, 0x41] none) = "b\"'\\\\\\n\\xffA\"".toList := by decide +kernel

/-- **C85**: the text of longer ones shows the first `maxstring` bytes and then `…`, and no Python accepts it. -/
theorem C85_bytes_cut (s : Settings) (b : Bytes) (h : s.maxstring < b.length) :
    evalText (reprBytes s b none) = .syntaxError ∧
      ∃ q body, reprBytes s b none = 'b' :: q :: (body ++ ['…', q]) ∧
        evalText ('b' :: q :: (body ++ [q])) = .value (.raw (.bytes (b.take s.maxstring))) := by
  rw [reprBytes_long s b h]
  refine ⟨(bad_cutBytes _).outcome, quoteFor (b.take s.maxstring), _, rfl, ?_⟩
  have := (good_pyBytes (b.take s.maxstring)).length (by omega)
  exact this

example : (reprBytes ⟨2, 6, none⟩ [1, 2, 3] none) = "b'\\x01\\x02…'".toList := by decide +kernel

/-- **C85**: so does the text of a bytearray. -/
theorem C85_bytearray (s : Settings) (b : Bytes) :
    (b.length ≤ s.maxstring → evalText (reprBytearray s b none) = .value (.raw (.bytearray b))) ∧
      (s.maxstring < b.length → evalText (reprBytearray s b none) = .syntaxError) := by
  constructor
  · intro h
    rw [reprBytearray_short s b h none rfl, (good_bytearray b).length (by rw [List.length_append]; have : "bytearray".toList.length = 9 := rfl; omega),
      eval_bytearray]
  · intro h
    rw [reprBytearray_long s b none (Or.inl h)]
    exact (bad_call _ [] _ _ bytearray_word rfl (bad_cutBytes _)).outcome

example : (reprBytearray exampleSettings [1, 2, 3] none) = "bytearray(b'\\x01\\x02\\x03')".toList := by decide +kernel

/-- **C85** for memoryviews: the text of one that was not released, shows memory in one piece and is short enough
evaluates to a memoryview of the same bytes with the same format, which is read-only if it was.  Missing: the others
(`C85_step_raises`, `C85_released`). -/
theorem C85_memoryview_partial (s : Settings) (v : MV) (hw : WellFormed (.mview v)) (ha : Accessible (.mview v)) :
    (v.content.length ≤ s.maxstring → ∃ t w, reprMemoryview s v = .ok t ∧ evalText t = .value (.raw (.mview w)) ∧
      w.content = v.content ∧ w.readonly = v.readonly ∧ w.format = v.format) ∧
    (s.maxstring < v.content.length → ∃ t, reprMemoryview s v = .ok t ∧ evalText t = .syntaxError) := by
  constructor
  · intro h
    obtain ⟨t, e, h1, h2, h3⟩ := reprMemoryview_short s v h hw ha
    refine ⟨t, plainView v, h1, ?_, rfl, rfl, rfl⟩
    by_cases hl : 3 ≤ t.length + 1
    · rw [h2.length hl, h3]
    · exfalso
      unfold reprMemoryview at h1
      rw [ha.1, ha.2] at h1
      simp only [Bool.false_eq_true, if_false] at h1
      have h11 : "memoryview(".toList.length = 11 := rfl
      split at h1
      · cases h1
        rw [List.length_append, List.length_append, List.length_append, List.length_append, List.length_append] at hl
        omega
      · cases h1
        rw [List.length_append, List.length_append] at hl
        omega
  · intro h
    obtain ⟨t, h1, h2⟩ := reprMemoryview_long s v h ha
    exact ⟨t, h1, h2.outcome⟩

example : ∃ t, reprMemoryview exampleSettings ⟨[1, 2, 3, 4], false, 'H', false, false, []⟩ = .ok t ∧
    t = "memoryview(bytearray(b'\\x01\\x02\\x03\\x04')).cast('H')".toList ∧
    evalText t = .value (.raw (.mview ⟨[1, 2, 3, 4], false, 'H', false, false, []⟩)) := ⟨_, rfl, by decide +kernel, by decide +kernel⟩

/-- **C85** for buffers: the text evaluates to the same buffer if and only if the memory is accessible and short enough to
be shown in full, and the buffer has a fixed size, or is resizable and smaller than its maximum.  Missing: the other
buffers (`C85_resizable_lost`, `C85_format_raises`, `C85_step_raises`). -/
theorem C85_buffer_partial (s : Settings) (level : Nat) (b : Buf) (hw : WellFormed b.data) :
    (∃ t c, reprBuf s level b = .ok t ∧ evalText t = .value (.buf c) ∧ SameBuf b c) ↔ PrintsWell s b := by
  by_cases ha : Accessible b.data
  · by_cases hs : b.data.content.length ≤ s.maxstring
    · obtain ⟨t, e, h1, h2, h3⟩ := reprBuf_good s level b hw ha hs
      have h4 := h2.length (by have := reprBuf_length s level b t h1; omega)
      rw [← bufOutcome_same s b ha hs]
      constructor
      · rintro ⟨t', c, h5, h6, h7⟩
        rw [h1] at h5
        cases h5
        rw [h4, h3] at h6
        cases ho : bufOutcome b.data.content b.max b.data.readonly with
        | error exc => rw [ho] at h6; cases h6
        | ok c' => rw [ho] at h6; cases h6; exact ⟨c, rfl, h7⟩
      · rintro ⟨c, h5, h6⟩
        refine ⟨t, c, h1, ?_, h6⟩
        rw [h4, h3, h5]
    · constructor
      · rintro ⟨t, c, h1, h2, _⟩
        obtain ⟨t', h3, h4⟩ := reprBuf_long s level b ha (by omega)
        rw [h1] at h3; cases h3
        rw [h4.outcome] at h2; cases h2
      · intro h; exact absurd h.short hs
  · constructor
    · rintro ⟨t, c, h1, h2, _⟩
      rcases reprBuf_lost s level b ha with h | ⟨t', h3, h4⟩
      · rw [h1] at h; cases h
      · rw [h1] at h3; cases h3
        rw [h4.outcome] at h2; cases h2
    · intro h; exact absurd h.accessible ha

example : ∃ t, reprBuf ⟨30, 6, some 4⟩ 6 ⟨.bytearray [1, 2], 9, true⟩ = .ok t ∧
    t = "JSArrayBuffer(\n    b'\\x01\\x02',\n    max_byte_length=9,\n)".toList ∧
    evalText t = .value (.buf ⟨.bytearray [1, 2], 9, true⟩) ∧ PrintsWell ⟨30, 6, some 4⟩ ⟨.bytearray [1, 2], 9, true⟩ :=
  ⟨_, rfl, by decide +kernel, by decide +kernel, ⟨trivial, by decide, Or.inr ⟨rfl, by decide, rfl⟩⟩⟩

/-- **C85**: if the text of a buffer evaluates to a buffer at all, then to one with the same bytes, the same maximum, and
read-only if it was: only `resizable` can be lost or gained. -/
theorem C85_buffer_bytes (s : Settings) (level : Nat) (b : Buf) (hw : WellFormed b.data) (t : Text) (c : Buf)
    (h : reprBuf s level b = .ok t) (he : evalText t = .value (.buf c)) :
    c.data.content = b.data.content ∧ c.max = b.max ∧ c.data.readonly = b.data.readonly ∧
      (c.resizable = true ↔ b.data.content.length < b.max) := by
  by_cases ha : Accessible b.data
  · by_cases hs : b.data.content.length ≤ s.maxstring
    · obtain ⟨t', e, h1, h2, h3⟩ := reprBuf_good s level b hw ha hs
      rw [h] at h1
      cases h1
      rw [h2.length (by have := reprBuf_length s level b t h; omega), h3] at he
      cases ho : bufOutcome b.data.content b.max b.data.readonly with
      | error exc => rw [ho] at he; cases he
      | ok c' =>
        rw [ho] at he
        cases he
        unfold bufOutcome at ho
        by_cases hm : b.data.content.length = b.max
        · rw [if_pos hm] at ho
          cases ho
          refine ⟨?_, rfl, ?_, ?_⟩
          · cases b.data.readonly <;> rfl
          · cases b.data.readonly <;> rfl
          · simp; omega
        · rw [if_neg hm] at ho
          cases hr : b.data.readonly with
          | true => rw [hr] at ho; simp at ho
          | false =>
            rw [hr] at ho
            by_cases hl : b.max < b.data.content.length
            · simp [hl] at ho
            · simp only [Bool.false_eq_true, if_false, hl] at ho
              cases ho
              exact ⟨rfl, rfl, rfl, by simp; omega⟩
    · obtain ⟨t', h3, h4⟩ := reprBuf_long s level b ha (by omega)
      rw [h] at h3; cases h3
      rw [h4.outcome] at he; cases he
  · rcases reprBuf_lost s level b ha with h' | ⟨t', h3, h4⟩
    · rw [h] at h'; cases h'
    · rw [h] at h3; cases h3
      rw [h4.outcome] at he; cases he

example : ∃ t c, reprBuf exampleSettings 6 ⟨.bytes [1, 2], 2, false⟩ = .ok t ∧ evalText t = .value (.buf c) ∧
    c = ⟨.bytes [1, 2], 2, false⟩ := ⟨_, ⟨.bytes [1, 2], 2, false⟩, rfl, by decide +kernel, rfl⟩

/-- **C85**: the text of a buffer with more than `maxstring` bytes is no Python. -/
theorem C85_buffer_cut (s : Settings) (level : Nat) (b : Buf) (ha : Accessible b.data)
    (h : s.maxstring < b.data.content.length) : ∃ t, reprBuf s level b = .ok t ∧ evalText t = .syntaxError := by
  obtain ⟨t, h1, h2⟩ := reprBuf_long s level b ha h
  exact ⟨t, h1, h2.outcome⟩

example : reprBuf ⟨2, 6, none⟩ 6 ⟨.bytearray [65, 66, 67], 9, true⟩
    = .ok "JSArrayBuffer(b'AB…', max_byte_length=9)".toList := by rfl

/-- **C85**: of the buffers made from bytes, bytearrays and memoryviews of bytes, with any options, all do but the ones
that are resizable and at their maximum. -/
theorem C85_made_partial (s : Settings) (data : Raw) (max : Option Int) (resizable copy readonly : Bool) (b : Buf)
    (ha : Accessible data) (hf : data.size = data.content.length)
    (h : newBuf data max resizable copy readonly = .ok b) (hs : b.data.content.length ≤ s.maxstring) :
    PrintsWell s b ↔ ¬ (b.resizable = true ∧ b.max = b.data.content.length) := by
  unfold newBuf at h
  simp only at h
  split at h
  · cases h
  rename_i hrr
  split at h
  · cases h
  split at h
  · cases h
  rename_i hba
  split at h
  · cases h
  rename_i hle
  cases h
  simp only at hs ⊢
  generalize hd : data.taken copy readonly = d at *
  have hd1 : Accessible d ∧ d.size = d.content.length := by
    rw [← hd]
    unfold Raw.taken
    cases copy <;> cases readonly <;> simp only [Bool.false_eq_true, if_false, if_true]
    · exact ⟨ha, hf⟩
    · cases data with
      | bytes b => exact ⟨trivial, rfl⟩
      | bytearray b => exact ⟨⟨rfl, rfl⟩, by simp [Raw.size, formatSize, Raw.content]⟩
      | mview v => exact ⟨ha, hf⟩
    · exact ⟨trivial, rfl⟩
    · exact ⟨trivial, rfl⟩
  rw [hd1.2] at hle
  constructor
  · intro hp hc
    rcases hp.limits with ⟨h1, _⟩ | ⟨_, h2, _⟩
    · rw [hc.1] at h1; cases h1
    · have h2' : d.content.length < _ := h2
      have h3 := hc.2
      simp only at h3 h2'
      omega
  · intro hc
    refine ⟨hd1.1, hs, ?_⟩
    simp only at hc ⊢
    cases hr : (resizable || max.isSome) with
    | false =>
      left
      refine ⟨rfl, ?_⟩
      have : max = none := by
        cases max with
        | none => rfl
        | some m => simp at hr
      rw [this, Option.getD_none, hd1.2]
      omega
    | true =>
      right
      rw [hr] at hc hba
      refine ⟨rfl, ?_, ?_⟩
      · simp only [true_and] at hc
        rw [hd1.2] at hc ⊢
        omega
      · cases d with
        | bytearray c => rfl
        | bytes c => simp [Raw.isBytearray] at hba
        | mview v => simp [Raw.isBytearray] at hba

example : ∃ b, newBuf (.bytes [1, 2, 3]) (some 8) false true false = .ok b ∧ PrintsWell exampleSettings b :=
  ⟨_, rfl, ⟨trivial, by decide, Or.inr ⟨rfl, by decide, rfl⟩⟩⟩

/-- A buffer that is resizable and at its maximum, `JSArrayBuffer(b'\x01', resizable=True)`, is shown as one of a fixed
size: what C85 says is not true of it. -/
theorem C85_resizable_lost :
    ∃ b t c, newBuf (.bytes [1]) none true true false = .ok b ∧ reprBuf exampleSettings 6 b = .ok t ∧
      t = "JSArrayBuffer(b'\\x01')".toList ∧ evalText t = .value (.buf c) ∧ b.resizable = true ∧ c.resizable = false :=
  ⟨_, _, ⟨.bytearray [1], 1, false⟩, rfl, rfl, by decide +kernel, by decide +kernel, rfl, rfl⟩

/-- A buffer around a memoryview of 16-bit items (made with `copy_data=False`) has the number of items as its maximum,
and its text raises. -/
theorem C85_format_raises :
    ∃ b t, newBuf (.mview ⟨[1, 2, 3, 4], false, 'H', false, false, []⟩) none false false false = .ok b ∧ b.max = 2 ∧
      reprBuf exampleSettings 6 b = .ok t ∧
      t = "JSArrayBuffer(memoryview(bytearray(b'\\x01\\x02\\x03\\x04')).cast('H'), max_byte_length=2)".toList ∧
      evalText t = .raises .jsArrayBufferError :=
  ⟨_, _, rfl, rfl, rfl, by decide +kernel, by decide +kernel⟩

/-- `repr()` of every buffer around a memoryview with steps raises TypeError. -/
theorem C85_step_raises (s : Settings) (level : Nat) (v : MV) (max : Nat) (resizable : Bool) (h : v.step = true)
    (hr : v.released = false) : reprBuf s level ⟨.mview v, max, resizable⟩ = .error .typeError := by
  simp [reprBuf, bufParts, Raw.released, hr, h, reprRaw, reprMemoryview, bind, Except.bind]

example : ∃ b, newBuf (.mview ⟨[1, 3], true, 'B', true, false, []⟩) none false false false = .ok b ∧
    reprBuf exampleSettings 6 b = .error .typeError := ⟨_, rfl, rfl⟩

/-- The text of a buffer whose memory was released does not evaluate. -/
theorem C85_released (s : Settings) (level : Nat) (v : MV) (max : Nat) (resizable : Bool) (hr : v.released = true) :
    ∃ t, reprBuf s level ⟨.mview v, max, resizable⟩ = .ok t ∧ evalText t = .syntaxError := by
  have ha : ¬ Accessible (Buf.mk (.mview v) max resizable).data := fun h => by
    have h' : v.released = false := h.1
    rw [hr] at h'; cases h'
  rcases reprBuf_lost s level ⟨.mview v, max, resizable⟩ ha with h | ⟨t, h1, h2⟩
  · simp [reprBuf, bufParts, Raw.released, hr, reprRaw, reprMemoryview, bind, Except.bind] at h
  · exact ⟨t, h1, h2.outcome⟩

example : reprBuf exampleSettings 6 ⟨.mview ⟨[], true, 'B', false, true, "7f00".toList⟩, 3, false⟩
    = .ok "JSArrayBuffer(<released memory at 0x7f00>, max_byte_length=3)".toList := by rfl

/-- **C85** for views: the text evaluates to the same view if and only if the backing buffer's text does, the view is not
read-only or has one item, and it is no JSFloat16Array of a Python before 3.12 (`backport`).  Missing: the other views
(`C85_view_readonly`, `C85_view_name`). -/
theorem C85_view_partial (backport : Bool) (s : Settings) (v : VObj) (hw : WellFormedBacking v.backing) :
    (∃ t w, reprView backport s v = .ok t ∧ evalText t = .view w ∧ SameView v w) ↔
      BackingPrintsWell s v.backing ∧ (v.readonly = false ∨ v.itemLength = some 1) ∧
        ¬ (backport = true ∧ v.tag = .float16) := by
  rcases reprBacking_cases s v.backing hw with ⟨hn, hc⟩ | ⟨d, e, y, h1, h2, h3, h4⟩
  · constructor
    · rintro ⟨t, w, h1, h2, _⟩
      exfalso
      rcases hc with ⟨exc, h3⟩ | ⟨d, h3, h4⟩ | ⟨d, e, exc, h3, h4, h5⟩
      · unfold reprView at h1; rw [h3] at h1; cases h1
      · obtain ⟨t', h5, h6⟩ := reprView_bad backport s v d h3 h4
        rw [h1] at h5; cases h5
        rw [h2] at h6; cases h6
      · obtain ⟨t', h6, h7⟩ := reprView_good backport s v d e h3 h4
        rw [h1] at h6; cases h6
        rw [h2, eval, h5] at h7; cases h7
    · rintro ⟨h, _⟩; exact absurd h hn
  · obtain ⟨t, h5, h6⟩ := reprView_good backport s v d e h1 h2
    rw [eval_view backport v e y h3] at h6
    rw [← h4]
    constructor
    · rintro ⟨t', w, h7, h8, h9⟩
      rw [h5] at h7; cases h7
      rw [h8] at h6
      by_cases hb : backport = true ∧ v.tag = .float16
      · rw [if_pos hb] at h6; cases h6
      · rw [if_neg hb] at h6
        cases hr : v.readonly with
        | false =>
          rw [hr] at h6
          simp only [Bool.false_eq_true, if_false, newView] at h6
          cases h6
          exact ⟨h9.backing, Or.inl rfl, hb⟩
        | true =>
          rw [hr] at h6
          cases hl : v.itemLength with
          | none =>
            rw [hl] at h6
            simp only [if_true, newView] at h6
            cases h6
            have := h9.readonly
            rw [hr] at this
            cases this
          | some n =>
            rw [hl] at h6
            simp only [if_true, newView] at h6
            by_cases hn : n = 1
            · subst hn
              simp only [if_true] at h6
              cases h6
              exact ⟨h9.backing, Or.inr rfl, hb⟩
            · simp only [hn, if_false] at h6
              cases h6
    · rintro ⟨h7, h8, h9⟩
      rw [if_neg h9] at h6
      rcases h8 with h8 | h8
      · rw [h8] at h6
        exact ⟨t, ⟨v.tag, y, v.itemOffset, v.itemLength, false⟩, h5, h6, rfl, h7, rfl, rfl, h8⟩
      · rw [h8] at h6
        cases hr : v.readonly with
        | false =>
          rw [hr] at h6
          exact ⟨t, ⟨v.tag, y, v.itemOffset, some 1, false⟩, h5, h6, rfl, h7, rfl, h8, hr⟩
        | true =>
          rw [hr] at h6
          exact ⟨t, ⟨v.tag, y, v.itemOffset, some 1, true⟩, h5, h6, rfl, h7, rfl, h8, hr⟩

example : ∃ t, reprView false exampleSettings ⟨.int16, .buf ⟨.bytearray [1, 2, 3, 4], 4, false⟩, 1, some 1, false⟩ = .ok t ∧
    t = "JSInt16Array(JSArrayBuffer(b'\\x01\\x02\\x03\\x04'), item_offset=1, item_length=1)".toList ∧
    evalText t = .view ⟨.int16, .buf ⟨.bytearray [1, 2, 3, 4], 4, false⟩, 1, some 1, false⟩ :=
  ⟨_, rfl, by decide +kernel, by decide +kernel⟩

/-- What the text of a read-only view stands for: `readonly=` is followed by the item length.  So it is a writable view if
the length is None, and raises ValueError if it is neither None nor 1. -/
theorem C85_view_readonly (s : Settings) (v : VObj) (hw : WellFormedBacking v.backing)
    (hb : BackingPrintsWell s v.backing) (hr : v.readonly = true) :
    (v.itemLength = none → ∃ t w, reprView false s v = .ok t ∧ evalText t = .view w ∧ w.readonly = false) ∧
    (∀ n, v.itemLength = some n → n ≠ 1 → ∃ t, reprView false s v = .ok t ∧ evalText t = .raises .valueError) := by
  rcases reprBacking_cases s v.backing hw with ⟨hn, hc⟩ | ⟨d, e, y, h1, h2, h3, h4⟩
  · exact absurd hb hn
  obtain ⟨t, h5, h6⟩ := reprView_good false s v d e h1 h2
  rw [eval_view false v e y h3, hr] at h6
  simp only [Bool.false_eq_true, false_and, if_false, if_true] at h6
  constructor
  · intro hl
    rw [hl] at h6
    exact ⟨t, _, h5, h6, rfl⟩
  · intro n hl hne
    rw [hl] at h6
    simp only [newView, hne, if_false] at h6
    exact ⟨t, h5, h6⟩

example : ∃ t, reprView false exampleSettings ⟨.uint8, .raw (.bytes [1, 2]), 0, some 2, true⟩ = .ok t ∧
    t = "JSUint8Array(b'\\x01\\x02', item_length=2, readonly=2)".toList ∧ evalText t = .raises .valueError :=
  ⟨_, rfl, by decide +kernel, by decide +kernel⟩

example : ∃ t, reprView false exampleSettings ⟨.uint8, .raw (.bytearray [1, 2]), 0, none, true⟩ = .ok t ∧
    t = "JSUint8Array(bytearray(b'\\x01\\x02'), readonly=None)".toList ∧
    evalText t = .view ⟨.uint8, .raw (.bytearray [1, 2]), 0, none, false⟩ :=
  ⟨_, rfl, by decide +kernel, by decide +kernel⟩

/-- Before Python 3.12, the text of a JSFloat16Array names a class that `v8serialize.jstypes` does not export. -/
theorem C85_view_name (s : Settings) (v : VObj) (hw : WellFormedBacking v.backing)
    (hb : BackingPrintsWell s v.backing) (ht : v.tag = .float16) :
    ∃ t, reprView true s v = .ok t ∧ evalText t = .nameError := by
  rcases reprBacking_cases s v.backing hw with ⟨hn, hc⟩ | ⟨d, e, y, h1, h2, h3, h4⟩
  · exact absurd hb hn
  obtain ⟨t, h5, h6⟩ := reprView_good true s v d e h1 h2
  rw [eval_view true v e y h3, if_pos ⟨rfl, ht⟩] at h6
  exact ⟨t, h5, h6⟩

example : reprView true exampleSettings ⟨.float16, .raw (.bytes [1, 2]), 0, none, false⟩
    = .ok "BackportJSFloat16Array(b'\\x01\\x02')".toList := by rfl

end V8.Props
