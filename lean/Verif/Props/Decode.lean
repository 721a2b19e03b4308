import Verif.Proofs.DecodeRoot
import Verif.Proofs.DecodeCounts
import Verif.Props.Config
import Verif.Spec.Examples

/-!
# C15-C19, C39, C45, C47, C48: what loads does with any data at all
-/

namespace V8.Props
open V8 V8.Spec

/-! ## C10 (loads) -/

theorem readTag_error {accept : Tag → Bool} {d : Bytes} {p : Nat} {e : DErr}
    (h : readTag accept true d p = .error e) : e = .decode := by
  unfold readTag at h
  by_cases hc : d.length < p + 1
  · have : ensureCapacity 1 d p = .error .decode := by
      simp only [ensureCapacity]; rw [if_pos (by omega), throwFmt_small (by decide)]
    rw [Rd.bind_error this] at h
    cases h; rfl
  · have hcap : ensureCapacity 1 d p = .ok ((), p) := by simp only [ensureCapacity]; rw [if_neg (by omega)]
    rw [Rd.bind_ok hcap] at h
    obtain ⟨b, hb⟩ : ∃ b, d[p]? = some b := ⟨d[p]'(by omega), List.getElem?_eq_getElem (by omega)⟩
    rw [Rd.bind_ok (byteHere_at hb)] at h
    have hend : ∀ (x : UInt8) (q : Nat), (match Tag.ofByte x with
        | some t => if accept t then (do advance (if true then 1 else 0); return t : Rd Tag) else throwD
        | none => throwD) d q = .error e → e = .decode := by
      intro x q hx
      cases ho : Tag.ofByte x with
      | none => simp only [ho] at hx; cases hx; rfl
      | some t =>
        simp only [ho] at hx
        by_cases ha : accept t = true
        · rw [if_pos ha] at hx; cases hx
        · rw [if_neg ha] at hx; cases hx; rfl
    unfold skipPadding at h
    by_cases h0 : b = Tag.kPadding.byte
    · rw [if_pos h0] at h
      have hadv : advance 1 d p = .ok ((), p + 1) := rfl
      cases hp : readPadding d (p + 1) with
      | error e' =>
        have : ((do advance 1; readPadding; byteHere : Rd UInt8)) d p = .error e' := by
          rw [Rd.bind_ok hadv, Rd.bind_error hp]
        rw [Rd.bind_error this] at h
        cases h
        exact readPaddingLoop_error hp
      | ok r =>
        obtain ⟨⟨⟩, q⟩ := r
        obtain ⟨k, b', r, h1, h2, h3⟩ := readPaddingLoop_ok hp
        have hq : d[q]? = some b' := by
          have : (d.drop (p + 1))[k]? = some b' := by rw [h1]; simp
          rw [List.getElem?_drop] at this
          rw [h3]; exact this
        have : ((do advance 1; readPadding; byteHere : Rd UInt8)) d p = .ok (b', q) := by
          rw [Rd.bind_ok hadv, Rd.bind_ok hp]
          exact byteHere_at hq
        rw [Rd.bind_ok this] at h
        exact hend _ _ h
    · rw [if_neg h0] at h
      exact hend _ _ h

/-- C10 (partial): without an acceptable header `loads` raises DecodeV8SerializeError, whatever
follows, or ValueError when the version number has more than 4300 digits.  Missing: it should be
DecodeV8SerializeError then too, see `C10_version_value_error`. -/
theorem C10_loads_needs_header_partial (env : DEnv) (d : Bytes) (h : ∀ v p, readHeader d 0 ≠ .ok (v, p)) :
    loads env d = .error .decode ∨ (loads env d = .error (.py .valueError) ∧
      ∃ t p w q, readThisTag .kVersion d 0 = .ok (t, p) ∧ readVarint none d p = .ok (w, q) ∧ 10 ^ 4300 ≤ w) := by
  unfold loads
  cases hh : readHeader d 0 with
  | ok r => exact absurd hh (h r.1 r.2)
  | error e =>
    suffices e = .decode ∨ (e = .py .valueError ∧
        ∃ t p w q, readThisTag .kVersion d 0 = .ok (t, p) ∧ readVarint none d p = .ok (w, q) ∧ 10 ^ 4300 ≤ w) by
      rcases this with rfl | ⟨rfl, hw⟩
      · exact .inl rfl
      · exact .inr ⟨rfl, hw⟩
    unfold readHeader at hh
    cases h1 : readThisTag .kVersion d 0 with
    | error e' =>
      rw [Rd.bind_error h1] at hh
      cases hh
      exact .inl (readTag_error h1)
    | ok r =>
      obtain ⟨t, p1⟩ := r
      rw [Rd.bind_ok h1] at hh
      cases h2 : readVarint none d p1 with
      | error e' =>
        rw [Rd.bind_error h2] at hh
        cases hh
        exact .inl (V8.readVarintLoop_error h2)
      | ok r =>
        obtain ⟨w, p2⟩ := r
        rw [Rd.bind_ok h2] at hh
        by_cases hv : (w > kLatestVersion || w < 13) = true
        · rw [if_pos hv] at hh
          cases hh
          rcases throwFmt_cases w with he | ⟨he, hw⟩
          · exact .inl he
          · unfold maxStrDigits at hw
            exact .inr ⟨he, t, p1, w, p2, rfl, h2, hw⟩
        · rw [if_neg hv] at hh; cases hh

/-- Version 16, and no header at all. -/
example : loads exampleDec [0xff, 0x10, 0x30] = .error .decode ∧ loads exampleDec [0x30] = .error .decode := by
  decide +kernel

/-- C10, C17 disagreement: the message of the exception formats the version number, which raises
ValueError from 4301 digits on. -/
theorem C10_version_value_error (env : DEnv) :
    loads env (0xff :: (List.replicate 2041 0xff ++ [0x7f])) = .error (.py .valueError) := by
  have h : readHeader (0xff :: (List.replicate 2041 0xff ++ [0x7f])) 0 = .error (.py .valueError) := by decide +kernel
  unfold loads
  rw [h]

/-! ## C15 -/

/-- C15 (partial): `loads` never runs out of the depth and round bounds of the model (which are the
number of bytes left), and when it returns a value it has read at most the data, and made at most 10
`decode_object` calls per byte.  Missing: the position does pass the end in some runs that then fail,
see `C15_position_passes_end`. -/
theorem C15_loads_terminates_partial (env : DEnv) (d : Bytes) :
    loads env d ≠ .error .fuel ∧
    ∀ v s, loads env d = .ok (v, s) → 3 ≤ s.pos ∧ s.pos ≤ d.length ∧ s.calls + 27 ≤ 10 * s.pos := by
  obtain ⟨h1, h2⟩ := loads_spec env d
  refine ⟨fun h => h2 _ h, fun v s h => ?_⟩
  obtain ⟨g1, _, _, g2, g3⟩ := h1 v s h
  refine ⟨g2, g1, ?_⟩
  unfold DS.cost at g3
  omega

/-- C15: every value decoded anywhere in the data takes at least one byte, and ends inside the data.
(`s.OK`: the object log holds values the decoder put there.) -/
theorem C15_value_takes_bytes (env : DEnv) (d : Bytes) (s : DS) (hp : s.pos ≤ d.length) (hok : s.OK d)
    (v : Val) (s' : DS) (h : decodeNext (decodeTag env (d.length - s.pos + 1)) d s = .ok (v, s')) :
    s.pos + 1 ≤ s'.pos ∧ s'.pos ≤ d.length := by
  have hT := Tr.decodeNext (d := d) (s := s) (RecOK.decodeTag env rfl (d.length - s.pos + 1)) (by omega)
  obtain ⟨g1, _, g2, _⟩ := (hT hp hok).1 v s' h
  exact ⟨g2, g1⟩

/-- The set of null and 5. -/
example : result (loads exampleDec [0xff, 0x0f, 0x27, 0x30, 0x55, 5, 0x2c, 2]) = some (.obj 0, [.jsset [.null, .int 5]], 8) := by
  decide +kernel

/-- C15 disagreement: the contents of a resizable buffer are checked against the data before its
maximum length is read, so the position can pass the end (`data[pos]` then raises IndexError). -/
theorem C15_position_passes_end :
    readResizableContents [0xff, 0x0f, 0x7e, 2, 0x80, 1, 0xaa] 3 = .ok (([0xaa], 128), 8) ∧
    loads exampleDec [0xff, 0x0f, 0x7e, 2, 0x80, 1, 0xaa] = .error (.py .indexError) := by
  decide +kernel

/-! ## C16 -/

/-- C16 (partial): if a message is not a view, cutting off any of the bytes that were read makes
`loads` raise. -/
theorem C16_truncation_rejected_partial (env : DEnv) (d : Bytes) (v : Val) (s : DS)
    (h : loads env d = .ok (v, s))
    (hv : ∀ i b w, v = .obj i → s.heap[i]? ≠ some (.view b w))
    (n : Nat) (hn : n < s.pos) : ∃ e, loads env (d.take n) = .error e := by
  cases hl : loads env (d.take n) with
  | error e => exact ⟨e, rfl⟩
  | ok r =>
    exfalso
    obtain ⟨v', s'⟩ := r
    have hlen := (((loads_spec env _).1 v' s' hl).1).trans (List.length_take_le n d)
    have hpre : d.take n ++ d.drop n = d := List.take_append_drop n d
    rcases loads_append hl (d.drop n) with h1 | ⟨_, _, _, h1⟩
    · rw [hpre, h] at h1
      cases h1
      omega
    · rw [hpre] at h1
      obtain ⟨i, b, w, h2, h3⟩ := h1 v s h
      exact hv i b w h2 h3

/-- C16: and if cutting a view's message short leaves one that is accepted, then exactly the view's
own part (from its `V` on) was cut off, and the rest is accepted as the bare buffer. -/
theorem C16_view_cut (env : DEnv) (d : Bytes) (v : Val) (s : DS) (h : loads env d = .ok (v, s))
    (n : Nat) (hn : n < s.pos) (v' : Val) (s' : DS) (h' : loads env (d.take n) = .ok (v', s')) :
    d[n]? = some 0x56 ∧ s'.pos = n ∧ isBuffer s'.heap v' = true ∧
      ∃ i b w, v = .obj i ∧ s.heap[i]? = some (.view b w) := by
  have hpos := ((loads_spec env _).1 v s h).1
  have hlen : (d.take n).length = n := by rw [List.length_take]; omega
  have hpre : d.take n ++ d.drop n = d := List.take_append_drop n d
  rcases loads_append h' (d.drop n) with h1 | ⟨g1, g2, g3, g4⟩
  · rw [hpre, h] at h1
    cases h1
    have := ((loads_spec env _).1 v s h').1
    omega
  · refine ⟨by rw [← List.head?_drop]; exact g3, by omega, g1, ?_⟩
    rw [hpre] at g4
    exact g4 v s h

example : ∀ n < 8, ∃ e, loads exampleDec (List.take n [0xff, 0x0f, 0x27, 0x30, 0x55, 5, 0x2c, 2]) = .error e := by
  intro n hn
  obtain ⟨s, h1, h2, h3⟩ := result_ok (r := loads exampleDec [0xff, 0x0f, 0x27, 0x30, 0x55, 5, 0x2c, 2])
    (v := .obj 0) (h := [.jsset [.null, .int 5]]) (p := 8) (by decide +kernel)
  refine C16_truncation_rejected_partial exampleDec _ _ s h1 ?_ n (h3 ▸ hn)
  intro i b w hi
  cases hi
  rw [h2]
  simp

/-- C16 disagreement: the first part of the message of a view is accepted as a bare buffer. -/
theorem C16_view_prefix_accepted :
    result (loads exampleDec [0xff, 0x0f, 0x42, 1, 7, 0x56, 0x42, 0, 1, 0])
      = some (.obj 1, [.abuf ⟨[7], 1, false⟩, .view (.obj 0) ⟨.uint8, 0, some 1⟩], 10) ∧
    result (loads exampleDec (List.take 5 [0xff, 0x0f, 0x42, 1, 7, 0x56, 0x42, 0, 1, 0]))
      = some (.obj 0, [.abuf ⟨[7], 1, false⟩], 5) := by
  decide +kernel

/-! ## C45 -/

/-- C45 (partial): data behind a message changes nothing (not even the position reached), unless the
message is a bare buffer and the data begins with `V`. -/
theorem C45_trailing_data_partial (env : DEnv) (d : Bytes) (v : Val) (s : DS) (h : loads env d = .ok (v, s))
    (suf : Bytes) (hs : suf.head? ≠ some 0x56 ∨ isBuffer s.heap v = false) :
    loads env (d ++ suf) = .ok (v, s) := by
  rcases loads_append h suf with h1 | ⟨g1, _, g3, _⟩
  · exact h1
  · rcases hs with hs | hs
    · exact absurd g3 hs
    · rw [g1] at hs; cases hs

/-- C45 disagreement: a view behind a bare buffer takes the buffer's place. -/
theorem C45_view_changes_value :
    result (loads exampleDec [0xff, 0x0f, 0x42, 1, 7]) = some (.obj 0, [.abuf ⟨[7], 1, false⟩], 5) ∧
    result (loads exampleDec ([0xff, 0x0f, 0x42, 1, 7] ++ [0x56, 0x42, 0, 1, 0]))
      = some (.obj 1, [.abuf ⟨[7], 1, false⟩, .view (.obj 0) ⟨.uint8, 0, some 1⟩], 10) := by
  decide +kernel

example : ∃ s, loads exampleDec [0xff, 0x0f, 0x27, 0x30, 0x2c, 1] = .ok (.obj 0, s) ∧
    loads exampleDec ([0xff, 0x0f, 0x27, 0x30, 0x2c, 1] ++ [0x56, 0xff]) = .ok (.obj 0, s) := by
  obtain ⟨s, h1, h2, _⟩ := result_ok (r := loads exampleDec [0xff, 0x0f, 0x27, 0x30, 0x2c, 1])
    (v := .obj 0) (h := [.jsset [.null]]) (p := 6) (by decide +kernel)
  refine ⟨s, h1, C45_trailing_data_partial _ _ _ s h1 _ (.inr ?_)⟩
  rw [h2]
  rfl

/-! ## C17 -/

/-- C17 (partial): every exception `loads` can raise, and what the data must contain for those that
are not DecodeV8SerializeError (`.decode`) or its subclass UnhandledTagDecodeV8SerializeError
(`.unhandledTag`): `~` a resizable buffer, `r` an error, `R` a RegExp, `V` a view, `-` a hole, `D` a
date (the exceptions of `datetime.fromtimestamp`). -/
theorem C17_exceptions_partial (env : DEnv) (d : Bytes) (e : DErr) (h : loads env d = .error e) :
    e = .decode ∨ e = .unhandledTag ∨
    (e = .py .indexError ∧ (0x7e ∈ d ∨ 0x72 ∈ d)) ∨
    (e = .py .valueError ∧ (0x52 ∈ d ∨ 2000 ≤ d.length)) ∨
    (e = .py .overflowError ∧ 127 < d.length) ∨
    (e = .py .jsArrayBufferError ∧ 0x56 ∈ d) ∨
    (e = .py .assertionError ∧ 0x2d ∈ d) ∨
    (0x44 ∈ d ∧ ∃ x p, e = .py p ∧ env.py.msDate x = .error p) := by
  have ha := (loads_spec env d).2 e h
  cases e with
  | decode => exact .inl rfl
  | unhandledTag => exact .inr (.inl rfl)
  | fuel => exact ha.elim
  | py p =>
    rcases ha with ha | ⟨h1, x, h2⟩
    · cases p with
      | indexError => exact .inr (.inr (.inl ⟨rfl, ha⟩))
      | valueError => exact .inr (.inr (.inr (.inl ⟨rfl, ha⟩)))
      | overflowError => exact .inr (.inr (.inr (.inr (.inl ⟨rfl, ha⟩))))
      | jsArrayBufferError => exact .inr (.inr (.inr (.inr (.inr (.inl ⟨rfl, ha⟩)))))
      | assertionError => exact .inr (.inr (.inr (.inr (.inr (.inr (.inl ⟨rfl, ha⟩))))))
      | keyError => exact ha.elim
      | typeError => exact ha.elim
      | notImplementedError => exact ha.elim
      | jsRegExpError => exact ha.elim
      | structError => exact ha.elim
      | attributeError => exact ha.elim
    · exact .inr (.inr (.inr (.inr (.inr (.inr (.inr ⟨h1, x, p, rfl, h2⟩))))))

/-- C17 (partial): on data of at most 127 bytes without the bytes `~` `r` `R` `V` `-` `D`, `loads`
returns a value or raises DecodeV8SerializeError. -/
theorem C17_plain_data_partial (env : DEnv) (d : Bytes) (hlen : d.length ≤ 127)
    (hd : ∀ b ∈ d, b ∉ ([0x7e, 0x72, 0x52, 0x56, 0x2d, 0x44] : List UInt8)) :
    (∃ v s, loads env d = .ok (v, s)) ∨ loads env d = .error .decode ∨ loads env d = .error .unhandledTag := by
  have hn : ∀ b : UInt8, b ∈ ([0x7e, 0x72, 0x52, 0x56, 0x2d, 0x44] : List UInt8) → b ∉ d :=
    fun b hb hbd => hd b hbd hb
  cases h : loads env d with
  | ok r => exact .inl ⟨r.1, r.2, rfl⟩
  | error e =>
    rcases C17_exceptions_partial env d e h with rfl | rfl | ⟨_, h | h⟩ | ⟨_, h | h⟩ | ⟨_, h⟩ | ⟨_, h⟩ | ⟨_, h⟩ | ⟨h, _⟩
    · exact .inr (.inl rfl)
    · exact .inr (.inr rfl)
    · exact absurd h (hn _ (by decide))
    · exact absurd h (hn _ (by decide))
    · exact absurd h (hn _ (by decide))
    · omega
    · omega
    · exact absurd h (hn _ (by decide))
    · exact absurd h (hn _ (by decide))
    · exact absurd h (hn _ (by decide))

example : loads exampleDec [0xff, 0x0f, 0x6f, 0x22, 1, 0x61, 0x5a] = .error .decode := by decide +kernel

/-- C17 disagreement: IndexError from a resizable buffer that runs past the end, and from an error tag
at the end of the data. -/
theorem C17_index_error :
    loads exampleDec [0xff, 0x0f, 0x7e, 2, 0x80, 1, 0xaa] = .error (.py .indexError) ∧
    loads exampleDec [0xff, 0x0f, 0x72, 0] = .error (.py .indexError) := by decide +kernel

/-- C17 disagreement: ValueError from a RegExp with both flags `u` and `v`. -/
theorem C17_regexp_value_error :
    loads exampleDec [0xff, 0x0f, 0x52, 0x22, 1, 0x61, 0x90, 2] = .error (.py .valueError) := by decide +kernel

/-- C17 disagreement: JSArrayBufferError from a view that does not fit its buffer. -/
theorem C17_view_error :
    loads exampleDec [0xff, 0x0f, 0x42, 1, 7, 0x56, 0x57, 0, 2, 0] = .error (.py .jsArrayBufferError) := by
  decide +kernel

/-- C17 disagreement: AssertionError from a sparse array in which a hole is stored at an index that
exists already, behind others in descending order. -/
theorem C17_assertion_error :
    loads exampleDec [0xff, 0x0f, 0x61, 0x64, 0x55, 5, 0x55, 1, 0x55, 3, 0x55, 2, 0x55, 5, 0x2d, 0x40, 3, 0x64]
      = .error (.py .assertionError) := by decide +kernel

/-- C17 disagreement: OverflowError from a BigInt of 2^1024 as the member of a Set (`isnan`). -/
theorem C17_overflow_error :
    loads exampleDec ([0xff, 0x0f, 0x27, 0x5a, 0x82, 0x2] ++ List.replicate 128 0 ++ [1, 0x2c, 1])
      = .error (.py .overflowError) := by decide +kernel

/-- C17 disagreement: what `fromtimestamp` raises, for example on a NaN date. -/
theorem C17_date_error :
    loads exampleDec [0xff, 0x0f, 0x44, 0, 0, 0, 0, 0, 0, 0xf8, 0xff] = .error (.py .valueError) := by
  decide +kernel

/-! ## C39 -/

/-- The bytes that can start a value. -/
def valueBytes : List UInt8 :=
  [0x2d, 0x5f, 0x30, 0x54, 0x46, 0x49, 0x55, 0x4e, 0x5a, 0x53, 0x22, 0x63, 0x5e, 0x6f, 0x61, 0x41, 0x44,
   0x79, 0x78, 0x6e, 0x7a, 0x73, 0x52, 0x3b, 0x27, 0x42, 0x7e, 0x74, 0x75, 0x70, 0x5c, 0x72]

/-- C39: where a value is expected, at any depth and in any state, a byte that starts no value (and
is not padding) makes the decoder raise DecodeV8SerializeError or its subclass for unhandled tags. -/
theorem C39_no_value_rejected (env : DEnv) (f : Nat) (b : UInt8) (hb : b ∉ valueBytes) (h0 : b ≠ 0)
    (pre suf : Bytes) (s : DS) (hs : s.pos = pre.length) :
    decodeNext (decodeTag env (f + 1)) (pre ++ [b] ++ suf) s = .error .decode ∨
    decodeNext (decodeTag env (f + 1)) (pre ++ [b] ++ suf) s = .error .unhandledTag := by
  unfold decodeNext
  cases ho : Tag.ofByte b with
  | none =>
    left
    have hn : ∀ t : Tag, t.byte ≠ b := by
      rintro t rfl
      rw [Tag.ofByte_byte] at ho
      cases ho
    refine RM.bind_error (RM.lift_error ?_)
    rw [hs]
    exact C39_unknown_byte_rejected b hn _ pre suf
  | some t =>
    have hbt := Tag.byte_of_ofByte ho
    subst hbt
    have ht : t ≠ .kPadding := by rintro rfl; exact h0 rfl
    have hr : readAnyTag (pre ++ [t.byte] ++ suf) s.pos = .ok (t, pre.length + 1) := by
      rw [hs]
      have := C39_padding_skipped t ht 0 pre suf
      simpa using this
    rw [RM.bind_ok (RM.lift_ok hr), decodeTag_succ]
    have htick : ∀ d s, tick d s = .ok ((), { s with calls := s.calls + 1 }) := fun _ _ => rfl
    rw [RM.bind_ok (htick _ _)]
    revert hb
    cases t <;> intro hb <;> first
      | exact absurd (by decide) hb
      | exact .inl rfl
      | exact .inr rfl

/-- The bytes of the tags that the decoder has no reader for: ends of containers, the version, the object
count and the tags of objects that Chromium used to put into messages. -/
def unreadBytes : List UInt8 :=
  [0x7b, 0x24, 0x40, 0x3a, 0x2c, 0xff, 0x3f, 0x4d, 0x62, 0x69, 0x66, 0x65, 0x64, 0x6c, 0x4c, 0x23, 0x67, 0x47, 0x48, 0x4b, 0x6b]

/-- C39: which of the two it is.  Views without a buffer and WebAssembly objects are decode errors, as are
the bytes that are no tags; only tags without a reader are reported as unhandled. -/
theorem C39_which_error (env : DEnv) (f : Nat) (b : UInt8) (hb : b ∉ valueBytes) (h0 : b ≠ 0)
    (pre suf : Bytes) (s : DS) (hs : s.pos = pre.length) :
    decodeNext (decodeTag env (f + 1)) (pre ++ [b] ++ suf) s = .error (if b ∈ unreadBytes then .unhandledTag else .decode) := by
  unfold decodeNext
  cases ho : Tag.ofByte b with
  | none =>
    have hn : ∀ t : Tag, t.byte ≠ b := by
      rintro t rfl
      rw [Tag.ofByte_byte] at ho
      cases ho
    have hu : b ∉ unreadBytes := by
      intro hu
      simp only [unreadBytes, List.mem_cons, List.not_mem_nil, or_false] at hu
      rcases hu with rfl | rfl | rfl | rfl | rfl | rfl | rfl | rfl | rfl | rfl | rfl | rfl | rfl | rfl | rfl | rfl | rfl | rfl |
        rfl | rfl | rfl <;> cases ho
    rw [if_neg hu]
    refine RM.bind_error (RM.lift_error ?_)
    rw [hs]
    exact C39_unknown_byte_rejected b hn _ pre suf
  | some t =>
    have hbt := Tag.byte_of_ofByte ho
    subst hbt
    have ht : t ≠ .kPadding := by rintro rfl; exact h0 rfl
    have hr : readAnyTag (pre ++ [t.byte] ++ suf) s.pos = .ok (t, pre.length + 1) := by
      rw [hs]
      have := C39_padding_skipped t ht 0 pre suf
      simpa using this
    rw [RM.bind_ok (RM.lift_ok hr), decodeTag_succ]
    have htick : ∀ d s, tick d s = .ok ((), { s with calls := s.calls + 1 }) := fun _ _ => rfl
    rw [RM.bind_ok (htick _ _)]
    revert hb
    cases t <;> intro hb <;> first
      | exact absurd (by decide) hb
      | exact absurd rfl ht
      | (rw [if_pos (by decide)]; rfl)
      | (rw [if_neg (by decide)]; rfl)

example : (0x77 : UInt8) ∉ valueBytes ∧ (0x77 : UInt8) ∉ unreadBytes ∧ (0x4d : UInt8) ∈ unreadBytes := by decide

/-- An end tag, a version tag, a legacy tag, and a byte that is no tag. -/
example : ∀ b ∈ ([0x7b, 0xff, 0x4d, 0x01] : List UInt8), b ∉ valueBytes ∧ b ≠ 0 := by decide

theorem padded_ge {pre rest : Bytes} {k : Nat} {t : Tag} {q : Nat}
    (h : readAnyTag (pre ++ List.replicate k 0 ++ rest) pre.length = .ok (t, q)) : pre.length + k + 1 ≤ q := by
  obtain ⟨j, r, h1, _, h2, h3, _⟩ := readTag_ok h
  rw [List.append_assoc, List.drop_left] at h1
  have hjk : k ≤ j := by
    by_contra hlt
    have hj : (List.replicate k 0 ++ rest)[j]? = some (0 : UInt8) := by
      rw [List.getElem?_append_left (by simp; omega)]
      exact List.getElem?_replicate_of_lt (by omega)
    rw [h1, List.getElem?_append_right (by simp)] at hj
    simp only [List.length_replicate, Nat.sub_self, List.getElem?_cons_zero, Option.some.injEq] at hj
    exact Tag.byte_ne_zero h2 hj
  omega

theorem readAnyTag_padded {pre rest : Bytes} {k : Nat} {t : Tag} {p : Nat} :
    readAnyTag (pre ++ rest) pre.length = .ok (t, p) ↔
      readAnyTag (pre ++ List.replicate k 0 ++ rest) pre.length = .ok (t, p + k) := by
  constructor
  · intro h
    obtain ⟨j, r, h1, _, h2, h3, _⟩ := readTag_ok h
    rw [List.drop_left] at h1
    subst h1
    have := C39_padding_skipped t h2 (k + j) pre r
    rw [List.replicate_add] at this
    simp only [List.append_assoc, List.singleton_append] at this ⊢
    rw [this, h3]
    congr 2
    omega
  · intro h
    obtain ⟨j, r, h1, _, h2, h3, _⟩ := readTag_ok h
    rw [List.append_assoc, List.drop_left] at h1
    have hjk : k ≤ j := by have := padded_ge h; omega
    obtain ⟨i, rfl⟩ := Nat.exists_eq_add_of_le hjk
    rw [List.replicate_add, List.append_assoc, List.append_cancel_left_eq] at h1
    subst h1
    have := C39_padding_skipped t h2 i pre r
    simp only [List.append_assoc, List.singleton_append] at this ⊢
    rw [this]
    congr 2
    omega

theorem sameRest_padded {pre rest : Bytes} {k p : Nat} (hp : pre.length ≤ p) :
    SameRest (pre ++ rest) p (pre ++ List.replicate k 0 ++ rest) (p + k) := by
  constructor
  · have e1 : (pre ++ rest).drop p = rest.drop (p - pre.length) := by
      rw [List.drop_append, List.drop_eq_nil_of_le hp, List.nil_append]
    have e2 : (pre ++ List.replicate k 0 ++ rest).drop (p + k) = rest.drop (p - pre.length) := by
      have hl : (pre ++ List.replicate k (0 : UInt8)).length = pre.length + k := by simp
      rw [List.drop_append, List.drop_eq_nil_of_le (by rw [hl]; omega), List.nil_append, hl]
      congr 1
      omega
    rw [e1, e2]
  · simp; omega

theorem decodeNext_padded (env : DEnv) {f f' : Nat} (hf : f ≤ f') {s : DS} {pre rest : Bytes}
    (hs : s.pos = pre.length) (k : Nat) {v : Val} {s' : DS}
    (h : decodeNext (decodeTag env f) (pre ++ rest) s = .ok (v, s')) :
    decodeNext (decodeTag env f') (pre ++ List.replicate k 0 ++ rest) s = .ok (v, { s' with pos := s'.pos + k }) := by
  obtain ⟨t, s1, h1, h2⟩ := RM.bind_eq_ok h
  obtain ⟨p, h3, rfl⟩ := RM.lift_eq_ok h1
  rw [hs] at h3
  have h4 := (readAnyTag_padded (k := k)).1 h3
  rw [← hs] at h4
  unfold decodeNext
  rw [RM.bind_ok (RM.lift_ok h4)]
  have hp : pre.length ≤ p := by have := (readAnyTag_le h3).1; omega
  have hsame := sameRest_padded (rest := rest) (k := k) hp
  obtain ⟨n, g1, g2⟩ := (shf_closed.decodeTag env f f' hf t _ { s with pos := p } _ _ hsame).2 v s' h2
  change s'.pos = p + n at g1
  rw [show s'.pos + k = p + k + n by omega]
  exact g2

/-- C39: any number of padding bytes before a value, at any depth and in any state, changes nothing
but the position. -/
theorem C39_padding_ignored (env : DEnv) (f : Nat) (s : DS) (pre rest : Bytes) (hs : s.pos = pre.length) (k : Nat)
    (v : Val) (s' : DS) :
    decodeNext (decodeTag env f) (pre ++ rest) s = .ok (v, s') ↔
    decodeNext (decodeTag env f) (pre ++ List.replicate k 0 ++ rest) s = .ok (v, { s' with pos := s'.pos + k }) := by
  refine ⟨decodeNext_padded env (Nat.le_refl _) hs k, fun h => ?_⟩
  obtain ⟨t, s1, h1, h2⟩ := RM.bind_eq_ok h
  obtain ⟨q, h3, rfl⟩ := RM.lift_eq_ok h1
  rw [hs] at h3
  have hpk := padded_ge h3
  obtain ⟨p, rfl⟩ : ∃ p, q = p + k := ⟨q - k, by omega⟩
  have h4 := (readAnyTag_padded (k := k)).2 h3
  have hp : pre.length ≤ p := by omega
  have hsame := sameRest_padded (rest := rest) (k := k) hp
  obtain ⟨n, g1, g2⟩ := (shf_closed.decodeTag env f f (Nat.le_refl _) t _ { s with pos := p + k } _ _
    ⟨hsame.1.symm, hsame.2.symm⟩).2 v _ h2
  change s'.pos + k = p + k + n at g1
  rw [← hs] at h4
  unfold decodeNext
  rw [RM.bind_ok (RM.lift_ok h4)]
  have e : s'.pos = p + n := by omega
  have : ({ s' with pos := s'.pos + k } : DS).at (p + n) = s' := by
    unfold DS.at
    rw [← e]
  rw [this] at g2
  exact g2

/-- C39: padding between the header and the root value. -/
theorem C39_padding_before_root (env : DEnv) (rest : Bytes) (k : Nat) (v : Val) (s' : DS)
    (h : loads env (0xff :: 0x0f :: rest) = .ok (v, s')) :
    loads env (0xff :: 0x0f :: (List.replicate k 0 ++ rest)) = .ok (v, { s' with pos := s'.pos + k }) := by
  have hh : ∀ r, readHeader (0xff :: 0x0f :: r) 0 = .ok (15, 2) := fun r => by
    have := (C10_header_written r).2
    rwa [(C10_header_written r).1] at this
  unfold loads at h ⊢
  simp only [hh] at h ⊢
  exact decodeNext_padded env (pre := [0xff, 0x0f]) (by simp) rfl k h

example : result (loads exampleDec [0xff, 0x0f, 0x55, 5]) = some (.int 5, [], 4) ∧
    result (loads exampleDec [0xff, 0x0f, 0, 0, 0, 0x55, 5]) = some (.int 5, [], 7) := by decide +kernel

/-! ## C18 -/

/-- C18: an accepted Map ends with twice the number of entries read. -/
theorem C18_map_count (env : DEnv) (f : Nat) (d : Bytes) (s : DS) (v : Val) (s' : DS)
    (h : decodeTag env (f + 1) .kBeginJSMap d s = .ok (v, s')) :
    ∃ n s1, Times (MapEntry (decodeTag env f) d) n (opened s (.jsmap [])) s1 ∧ EndsWith d 0x3a s1 (2 * n) s'.pos := by
  rw [decodeTag_succ] at h
  obtain ⟨_, s1, h1, h⟩ := RM.bind_eq_ok h
  cases h1
  obtain ⟨i, s1, h1, h⟩ := RM.bind_eq_ok h
  cases h1
  obtain ⟨_, s1, h1, h⟩ := RM.bind_eq_ok h
  cases h1
  obtain ⟨_, s1, h1, h⟩ := RM.bind_eq_ok h
  cases h1
  obtain ⟨⟨m, c⟩, s2, h2, h⟩ := RM.bind_eq_ok h
  obtain ⟨n, s3, t, g1, g2, g3, g4⟩ := mapLoop_ok h2
  obtain ⟨ex, s4, h3, h⟩ := RM.bind_eq_ok h
  obtain ⟨p, h5, rfl⟩ := RM.lift_eq_ok h3
  obtain ⟨u, s5, h6, h⟩ := RM.bind_eq_ok h
  obtain ⟨rfl, rfl⟩ := checkCount_ok h6
  cases h
  refine ⟨n, s3, g1, t, s2.pos, g2, g3, ?_⟩
  simp only [Nat.zero_add] at g4
  subst g4
  exact h5

/-- C18 (partial): a Map that ends with any other number is not accepted; the exception is
DecodeV8SerializeError, unless storing an earlier entry already raised OverflowError (see
`C17_overflow_error`), or one of the counts has more than 4300 digits (see `C18_count_value_error`). -/
theorem C18_map_count_rejected_partial (env : DEnv) (f : Nat) (d : Bytes) (s : DS) (n c p : Nat) (s1 : DS)
    (h1 : Times (MapEntry (decodeTag env f) d) n (opened s (.jsmap [])) s1) (h2 : EndsWith d 0x3a s1 c p)
    (hc : c ≠ 2 * n) :
    decodeTag env (f + 1) .kBeginJSMap d s = .error .decode ∨
    decodeTag env (f + 1) .kBeginJSMap d s = .error (.py .overflowError) ∨
    (decodeTag env (f + 1) .kBeginJSMap d s = .error (.py .valueError) ∧ 10 ^ 4300 ≤ max c (2 * n)) := by
  obtain ⟨t, q, g1, g2, g3⟩ := h2
  have hfwd := Fwd.decodeTag env f
  have hb := Times.bytes (fun a b (h : MapEntry (decodeTag env f) d a b) => by
    obtain ⟨m, x, y⟩ := h
    have := ReadsTagged.lt hfwd x
    have := ReadsValue.lt hfwd y
    omega) h1
  have hq := readAnyTag_le g1
  have hpos : (opened s (.jsmap [])).pos = s.pos := rfl
  have hrun : decodeTag env (f + 1) .kBeginJSMap d s =
      (mapLoop (decodeTag env f) (d.length - s.pos + 1) [] 0 >>= fun r => RM.lift (readVarint none) >>= fun e =>
        checkCount e r.2 >>= fun _ => setNode s.heap.length (.jsmap r.1.items) >>= fun _ =>
        pure (.obj s.heap.length)) d (opened s (.jsmap [])) := by
    rw [decodeTag_succ]
    rfl
  rw [hrun]
  rcases mapLoop_of_entries (f := d.length - s.pos + 1) (m := []) (c := 0) h1 g1 g2 (by omega) with ⟨m, h⟩ | h
  · rw [RM.bind_ok h, RM.bind_ok (RM.lift_ok g3), Nat.zero_add]
    rcases checkCount_bad (d := d) (s := { s1 with pos := p }) hc with hb | ⟨hb, hm⟩
    · exact .inl (RM.bind_error hb)
    · unfold maxStrDigits at hm
      exact .inr (.inr ⟨RM.bind_error hb, hm⟩)
  · exact .inr (.inl (RM.bind_error h))

/-- C18: an accepted Set ends with the number of members read. -/
theorem C18_set_count (env : DEnv) (f : Nat) (d : Bytes) (s : DS) (v : Val) (s' : DS)
    (h : decodeTag env (f + 1) .kBeginJSSet d s = .ok (v, s')) :
    ∃ n s1, Times (SetEntry (decodeTag env f) d) n (opened s (.jsset [])) s1 ∧ EndsWith d 0x2c s1 n s'.pos := by
  rw [decodeTag_succ] at h
  obtain ⟨_, s1, h1, h⟩ := RM.bind_eq_ok h
  cases h1
  obtain ⟨i, s1, h1, h⟩ := RM.bind_eq_ok h
  cases h1
  obtain ⟨_, s1, h1, h⟩ := RM.bind_eq_ok h
  cases h1
  obtain ⟨_, s1, h1, h⟩ := RM.bind_eq_ok h
  cases h1
  obtain ⟨⟨m, c⟩, s2, h2, h⟩ := RM.bind_eq_ok h
  obtain ⟨n, s3, t, g1, g2, g3, g4⟩ := setLoop_ok h2
  obtain ⟨ex, s4, h3, h⟩ := RM.bind_eq_ok h
  obtain ⟨p, h5, rfl⟩ := RM.lift_eq_ok h3
  obtain ⟨u, s5, h6, h⟩ := RM.bind_eq_ok h
  obtain ⟨rfl, rfl⟩ := checkCount_ok h6
  cases h
  refine ⟨n, s3, g1, t, s2.pos, g2, g3, ?_⟩
  simp only [Nat.zero_add] at g4
  subst g4
  exact h5

/-- C18 (partial): a Set that ends with any other number is not accepted; the exception as for a Map. -/
theorem C18_set_count_rejected_partial (env : DEnv) (f : Nat) (d : Bytes) (s : DS) (n c p : Nat) (s1 : DS)
    (h1 : Times (SetEntry (decodeTag env f) d) n (opened s (.jsset [])) s1) (h2 : EndsWith d 0x2c s1 c p)
    (hc : c ≠ n) :
    decodeTag env (f + 1) .kBeginJSSet d s = .error .decode ∨
    decodeTag env (f + 1) .kBeginJSSet d s = .error (.py .overflowError) ∨
    (decodeTag env (f + 1) .kBeginJSSet d s = .error (.py .valueError) ∧ 10 ^ 4300 ≤ max c n) := by
  obtain ⟨t, q, g1, g2, g3⟩ := h2
  have hfwd := Fwd.decodeTag env f
  have hb := Times.bytes (fun a b (h : SetEntry (decodeTag env f) d a b) => ReadsTagged.lt hfwd h) h1
  have hq := readAnyTag_le g1
  have hpos : (opened s (.jsset [])).pos = s.pos := rfl
  have hrun : decodeTag env (f + 1) .kBeginJSSet d s =
      (setLoop (decodeTag env f) (d.length - s.pos + 1) [] 0 >>= fun r => RM.lift (readVarint none) >>= fun e =>
        checkCount e r.2 >>= fun _ => setNode s.heap.length (.jsset r.1.members) >>= fun _ =>
        pure (.obj s.heap.length)) d (opened s (.jsset [])) := by
    rw [decodeTag_succ]
    rfl
  rw [hrun]
  rcases setLoop_of_entries (f := d.length - s.pos + 1) (m := []) (c := 0) h1 g1 g2 (by omega) with ⟨m, h⟩ | h
  · rw [RM.bind_ok h, RM.bind_ok (RM.lift_ok g3), Nat.zero_add]
    rcases checkCount_bad (d := d) (s := { s1 with pos := p }) hc with hb | ⟨hb, hm⟩
    · exact .inl (RM.bind_error hb)
    · unfold maxStrDigits at hm
      exact .inr (.inr ⟨RM.bind_error hb, hm⟩)
  · exact .inr (.inl (RM.bind_error h))

/-- C18, C19: an accepted object consists of entries whose keys are numbers or strings, and ends with
the number of its entries. -/
theorem C18_object_count (env : DEnv) (f : Nat) (d : Bytes) (s : DS) (v : Val) (s' : DS)
    (h : decodeTag env (f + 1) .kBeginJSObject d s = .ok (v, s')) :
    ∃ n s1, Times (PropEntry (decodeTag env f) d) n (opened s (.jsobj JSObj.empty)) s1 ∧ EndsWith d 0x7b s1 n s'.pos := by
  rw [decodeTag_succ] at h
  obtain ⟨_, s1, h1, h⟩ := RM.bind_eq_ok h
  cases h1
  obtain ⟨i, s1, h1, h⟩ := RM.bind_eq_ok h
  cases h1
  obtain ⟨_, s1, h1, h⟩ := RM.bind_eq_ok h
  cases h1
  obtain ⟨o, s2, h2, h⟩ := RM.bind_eq_ok h
  obtain ⟨n, s3, g1, g2⟩ := readProps_ok h2
  cases h
  exact ⟨n, s3, g1, g2⟩

theorem object_run (env : DEnv) (f : Nat) (d : Bytes) (s : DS) :
    decodeTag env (f + 1) .kBeginJSObject d s =
      (readProps env (decodeTag env f) .kEndJSObject JSObj.empty >>= fun o => setNode s.heap.length (.jsobj o) >>= fun _ =>
        pure (.obj s.heap.length)) d (opened s (.jsobj JSObj.empty)) := by
  rw [decodeTag_succ]
  rfl

/-- C18 (partial): an object that ends with any other number is not accepted; the exception is
DecodeV8SerializeError unless storing an earlier entry already raised (see C17), or a count has more
than 4300 digits. -/
theorem C18_object_count_rejected_partial (env : DEnv) (f : Nat) (d : Bytes) (s : DS) (n c p : Nat) (s1 : DS)
    (h1 : Times (PropEntry (decodeTag env f) d) n (opened s (.jsobj JSObj.empty)) s1) (h2 : EndsWith d 0x7b s1 c p)
    (hc : c ≠ n) :
    decodeTag env (f + 1) .kBeginJSObject d s = .error .decode ∨
    ∃ x, decodeTag env (f + 1) .kBeginJSObject d s = .error (.py x) := by
  rw [object_run]
  rcases readProps_wrong (env := env) (o := JSObj.empty) (Fwd.decodeTag env f) (e := .kEndJSObject) (by decide) h1 h2 hc with h | ⟨x, h⟩
  · exact .inl (RM.bind_error h)
  · exact .inr ⟨x, RM.bind_error h⟩

/-- The elements, properties and both numbers of a dense array: `n`, `n` elements, `m` properties,
the end tag, `m`, `n`. -/
def DenseBody (rec : Tag → RM Val) (d : Bytes) (s : DS) (n m m' p' : Nat) : Prop :=
  ∃ p s1 s2, readVarint none d s.pos = .ok (n, p) ∧ Times (ReadsValue rec d) n { s with pos := p } s1 ∧
    Times (PropEntry rec d) m s1 s2 ∧ EndsWith d 0x24 s2 m' p'

/-- C18: an accepted dense array has as many elements as its leading number says, ends with the
number of its properties and its length again. -/
theorem C18_dense_counts (env : DEnv) (f : Nat) (d : Bytes) (s : DS) (v : Val) (s' : DS)
    (h : decodeTag env (f + 1) .kBeginDenseJSArray d s = .ok (v, s')) :
    ∃ n m p, DenseBody (decodeTag env f) d (opened s (.jsarr JSObj.empty)) n m m p ∧
      readVarint none d p = .ok (n, s'.pos) := by
  rw [decodeTag_succ] at h
  obtain ⟨_, s1, h1, h⟩ := RM.bind_eq_ok h
  cases h1
  obtain ⟨i, s1, h1, h⟩ := RM.bind_eq_ok h
  cases h1
  obtain ⟨_, s1, h1, h⟩ := RM.bind_eq_ok h
  cases h1
  obtain ⟨n, s2, h2', h⟩ := RM.bind_eq_ok h
  obtain ⟨p, h2, rfl⟩ := RM.lift_eq_ok h2'
  obtain ⟨o, s3, h3, h⟩ := RM.bind_eq_ok h
  obtain ⟨o2, s4, h4, h⟩ := RM.bind_eq_ok h
  obtain ⟨m, s5, g1, g2⟩ := readProps_ok h4
  obtain ⟨fin, s6, h5', h⟩ := RM.bind_eq_ok h
  obtain ⟨q, h5, rfl⟩ := RM.lift_eq_ok h5'
  obtain ⟨u, s7, h6, h⟩ := RM.bind_eq_ok h
  obtain ⟨rfl, rfl⟩ := checkCount_ok h6
  cases h
  exact ⟨n, m, s4.pos, ⟨p, s3, s5, h2, elemsLoop_ok h3, g1, g2⟩, h5⟩

theorem dense_run (env : DEnv) (f : Nat) (d : Bytes) (s : DS) :
    decodeTag env (f + 1) .kBeginDenseJSArray d s =
      (RM.lift (readVarint none) >>= fun n => elemsLoop env (decodeTag env f) n 0 JSObj.empty >>= fun o =>
        readProps env (decodeTag env f) .kEndDenseJSArray o >>= fun o => RM.lift (readVarint none) >>= fun fin =>
        checkCount n fin >>= fun _ => setNode s.heap.length (.jsarr o) >>= fun _ =>
        pure (.obj s.heap.length)) d (opened s (.jsarr JSObj.empty)) := by
  rw [decodeTag_succ]
  rfl

/-- C18 (partial): a dense array that ends with any other number of properties is not accepted. -/
theorem C18_dense_count_rejected_partial (env : DEnv) (f : Nat) (d : Bytes) (s : DS) (n m c p : Nat)
    (h : DenseBody (decodeTag env f) d (opened s (.jsarr JSObj.empty)) n m c p) (hc : c ≠ m) :
    decodeTag env (f + 1) .kBeginDenseJSArray d s = .error .decode ∨
    ∃ x, decodeTag env (f + 1) .kBeginDenseJSArray d s = .error (.py x) := by
  obtain ⟨q, s1, s2, h1, h2, h3, h4⟩ := h
  rw [dense_run, RM.bind_ok (RM.lift_ok h1)]
  rcases elemsLoop_of_values (env := env) (i := 0) (o := JSObj.empty) h2 with ⟨o, g⟩ | ⟨x, g⟩
  · rw [RM.bind_ok g]
    rcases readProps_wrong (env := env) (o := o) (Fwd.decodeTag env f) (e := .kEndDenseJSArray) (by decide) h3 h4 hc with h | ⟨x, h⟩
    · exact .inl (RM.bind_error h)
    · exact .inr ⟨x, RM.bind_error h⟩
  · exact .inr ⟨x, RM.bind_error g⟩

/-- C18 (partial): a dense array that ends with another length is not accepted. -/
theorem C18_dense_length_rejected_partial (env : DEnv) (f : Nat) (d : Bytes) (s : DS) (n m p n' p' : Nat)
    (h : DenseBody (decodeTag env f) d (opened s (.jsarr JSObj.empty)) n m m p)
    (hl : readVarint none d p = .ok (n', p')) (hn : n' ≠ n) :
    decodeTag env (f + 1) .kBeginDenseJSArray d s = .error .decode ∨
    ∃ x, decodeTag env (f + 1) .kBeginDenseJSArray d s = .error (.py x) := by
  obtain ⟨q, s1, s2, h1, h2, h3, h4⟩ := h
  rw [dense_run, RM.bind_ok (RM.lift_ok h1)]
  rcases elemsLoop_of_values (env := env) (i := 0) (o := JSObj.empty) h2 with ⟨o, g⟩ | ⟨x, g⟩
  · rw [RM.bind_ok g]
    rcases readProps_right (env := env) (o := o) (Fwd.decodeTag env f) (e := .kEndDenseJSArray) (by decide) h3 h4 with ⟨o', h⟩ | ⟨x, h⟩
    · rw [RM.bind_ok h, RM.bind_ok (RM.lift_ok hl)]
      rcases checkCount_bad (d := d) (s := { s2 with pos := p' }) (fun he => hn he.symm) with hb | ⟨hb, _⟩
      · exact .inl (RM.bind_error hb)
      · exact .inr ⟨_, RM.bind_error hb⟩
    · exact .inr ⟨x, RM.bind_error h⟩
  · exact .inr ⟨x, RM.bind_error g⟩

/-- The parts of a sparse array: its length, `m` properties, the end tag, a number. -/
def SparseBody (rec : Tag → RM Val) (d : Bytes) (s : DS) (n m m' p' : Nat) : Prop :=
  ∃ p s2, readVarint none d s.pos = .ok (n, p) ∧
    Times (PropEntry rec d) m { s with pos := p } s2 ∧ EndsWith d 0x40 s2 m' p'

/-- C18: an accepted sparse array ends with the number of its entries and its length again. -/
theorem C18_sparse_counts (env : DEnv) (f : Nat) (d : Bytes) (s : DS) (v : Val) (s' : DS)
    (h : decodeTag env (f + 1) .kBeginSparseJSArray d s = .ok (v, s')) :
    ∃ n m p, SparseBody (decodeTag env f) d (opened s (.jsarr JSObj.empty)) n m m p ∧
      readVarint none d p = .ok (n, s'.pos) := by
  rw [decodeTag_succ] at h
  obtain ⟨_, s1, h1, h⟩ := RM.bind_eq_ok h
  cases h1
  obtain ⟨i, s1, h1, h⟩ := RM.bind_eq_ok h
  cases h1
  obtain ⟨_, s1, h1, h⟩ := RM.bind_eq_ok h
  cases h1
  obtain ⟨n, s2, h2', h⟩ := RM.bind_eq_ok h
  obtain ⟨p, h2, rfl⟩ := RM.lift_eq_ok h2'
  obtain ⟨o, s3, h3, h⟩ := RM.bind_eq_ok h
  obtain rfl := resizeTo_state h3
  obtain ⟨o2, s4, h4, h⟩ := RM.bind_eq_ok h
  obtain ⟨m, s5, g1, g2⟩ := readProps_ok h4
  obtain ⟨fin, s6, h5', h⟩ := RM.bind_eq_ok h
  obtain ⟨q, h5, rfl⟩ := RM.lift_eq_ok h5'
  obtain ⟨u, s7, h6, h⟩ := RM.bind_eq_ok h
  obtain ⟨rfl, rfl⟩ := checkCount_ok h6
  cases h
  exact ⟨n, m, s4.pos, ⟨p, s5, h2, g1, g2⟩, h5⟩

theorem sparse_run (env : DEnv) (f : Nat) (d : Bytes) (s : DS) :
    decodeTag env (f + 1) .kBeginSparseJSArray d s =
      (RM.lift (readVarint none) >>= fun n => resizeTo env n JSObj.empty >>= fun o =>
        readProps env (decodeTag env f) .kEndSparseJSArray o >>= fun o => RM.lift (readVarint none) >>= fun fin =>
        checkCount n fin >>= fun _ => setNode s.heap.length (.jsarr o) >>= fun _ =>
        pure (.obj s.heap.length)) d (opened s (.jsarr JSObj.empty)) := by
  rw [decodeTag_succ]
  rfl

/-- C18 (partial): a sparse array that ends with any other number of entries is not accepted. -/
theorem C18_sparse_count_rejected_partial (env : DEnv) (f : Nat) (d : Bytes) (s : DS) (n m c p : Nat)
    (h : SparseBody (decodeTag env f) d (opened s (.jsarr JSObj.empty)) n m c p) (hc : c ≠ m) :
    decodeTag env (f + 1) .kBeginSparseJSArray d s = .error .decode ∨
    ∃ x, decodeTag env (f + 1) .kBeginSparseJSArray d s = .error (.py x) := by
  obtain ⟨q, s2, h1, h3, h4⟩ := h
  rw [sparse_run, RM.bind_ok (RM.lift_ok h1)]
  rcases resizeTo_total (d := d) env n { opened s (.jsarr JSObj.empty) with pos := q } with ⟨o, g⟩ | ⟨x, g⟩
  · rw [RM.bind_ok g]
    rcases readProps_wrong (env := env) (o := o) (Fwd.decodeTag env f) (e := .kEndSparseJSArray) (by decide) h3 h4 hc with h | ⟨x, h⟩
    · exact .inl (RM.bind_error h)
    · exact .inr ⟨x, RM.bind_error h⟩
  · exact .inr ⟨x, RM.bind_error g⟩

/-- C18 (partial): a sparse array that ends with another length is not accepted. -/
theorem C18_sparse_length_rejected_partial (env : DEnv) (f : Nat) (d : Bytes) (s : DS) (n m p n' p' : Nat)
    (h : SparseBody (decodeTag env f) d (opened s (.jsarr JSObj.empty)) n m m p)
    (hl : readVarint none d p = .ok (n', p')) (hn : n' ≠ n) :
    decodeTag env (f + 1) .kBeginSparseJSArray d s = .error .decode ∨
    ∃ x, decodeTag env (f + 1) .kBeginSparseJSArray d s = .error (.py x) := by
  obtain ⟨q, s2, h1, h3, h4⟩ := h
  rw [sparse_run, RM.bind_ok (RM.lift_ok h1)]
  rcases resizeTo_total (d := d) env n { opened s (.jsarr JSObj.empty) with pos := q } with ⟨o, g⟩ | ⟨x, g⟩
  · rw [RM.bind_ok g]
    rcases readProps_right (env := env) (o := o) (Fwd.decodeTag env f) (e := .kEndSparseJSArray) (by decide) h3 h4 with ⟨o', h⟩ | ⟨x, h⟩
    · rw [RM.bind_ok h, RM.bind_ok (RM.lift_ok hl)]
      rcases checkCount_bad (d := d) (s := { s2 with pos := p' }) (fun he => hn he.symm) with hb | ⟨hb, _⟩
      · exact .inl (RM.bind_error hb)
      · exact .inr ⟨_, RM.bind_error hb⟩
    · exact .inr ⟨x, RM.bind_error h⟩
  · exact .inr ⟨x, RM.bind_error g⟩

/-- A Map with one entry, and with a wrong count. -/
example : result (loads exampleDec [0xff, 0x0f, 0x3b, 0x30, 0x54, 0x3a, 2]) = some (.obj 0, [.jsmap [(.null, .bool true)]], 7) ∧
    loads exampleDec [0xff, 0x0f, 0x3b, 0x30, 0x54, 0x3a, 1] = .error .decode := by decide +kernel

/-- The hypotheses of `C18_map_count_rejected_partial` are met by that data. -/
example : ∃ s1, Times (MapEntry (decodeTag exampleDec 1) [0xff, 0x0f, 0x3b, 0x30, 0x54, 0x3a, 1]) 1
      (opened (DS.start 3 15) (.jsmap [])) s1 ∧ EndsWith [0xff, 0x0f, 0x3b, 0x30, 0x54, 0x3a, 1] 0x3a s1 1 7 := by
  exact ⟨{ opened (DS.start 3 15) (.jsmap []) with pos := 5, calls := 3 },
    ⟨{ opened (DS.start 3 15) (.jsmap []) with pos := 5, calls := 3 }, ⟨{ opened (DS.start 3 15) (.jsmap []) with pos := 4, calls := 2 },
      ⟨.kNull, 4, .null, by decide +kernel, by decide, by decide +kernel⟩, .kTrue, 5, .bool true, by decide +kernel, by decide +kernel⟩, rfl⟩,
    .kEndJSMap, 6, by decide +kernel, rfl, by decide +kernel⟩

/-- An object, a dense array and a sparse array with wrong counts or lengths. -/
example : loads exampleDec [0xff, 0x0f, 0x6f, 0x55, 1, 0x30, 0x7b, 0] = .error .decode ∧
    loads exampleDec [0xff, 0x0f, 0x41, 1, 0x30, 0x24, 1, 1] = .error .decode ∧
    loads exampleDec [0xff, 0x0f, 0x41, 1, 0x30, 0x24, 0, 2] = .error .decode ∧
    loads exampleDec [0xff, 0x0f, 0x61, 9, 0x55, 1, 0x30, 0x40, 1, 8] = .error .decode := by decide +kernel

/-- C18, C17 disagreement: an empty Map, Set, object, dense and sparse array followed by a count (the
arrays by a length) of 4301 digits, and a string of such a length: the message of the exception formats
the number, which raises ValueError. -/
theorem C18_count_value_error : ∀ body ∈ ([[0x3b, 0x3a], [0x27, 0x2c], [0x6f, 0x7b],
      [0x41, 0, 0x24, 0], [0x61, 0, 0x40, 0], [0x22], [0x63], [0x53]] : List Bytes),
    loads exampleDec (0xff :: 0x0f :: (body ++ List.replicate 2041 0xff ++ [0x7f])) = .error (.py .valueError) := by
  decide +kernel

/-- C17 disagreement: flags with a defined and an undefined bit set, the rest having more than 4300
digits: naming the flag raises ValueError, in a RegExp and in a view. -/
theorem C17_flag_value_error :
    loads exampleDec ([0xff, 0x0f, 0x52, 0x22, 0] ++ List.replicate 2041 0xff ++ [0x7f]) = .error (.py .valueError) ∧
    loads exampleDec ([0xff, 0x0f, 0x42, 0, 0x56, 0x42, 0, 0] ++ List.replicate 2041 0xff ++ [0x7f])
      = .error (.py .valueError) := by
  decide +kernel

/-! ## C19 (reader) -/

/-- C19: whatever else than a number or string tag stands where an object's key is expected (and is
not the end of the object) is rejected; the exception is DecodeV8SerializeError, unless storing an
earlier entry already raised. -/
theorem C19_reader_rejects_other_keys (env : DEnv) (f : Nat) (d : Bytes) (s : DS) (n p : Nat) (s1 : DS) (t : Tag)
    (h1 : Times (PropEntry (decodeTag env f) d) n (opened s (.jsobj JSObj.empty)) s1)
    (h2 : readAnyTag d s1.pos = .ok (t, p)) (ht : t.byte ∉ keyBytes) (he : t.byte ≠ 0x7b) :
    decodeTag env (f + 1) .kBeginJSObject d s = .error .decode ∨
    ∃ x, decodeTag env (f + 1) .kBeginJSObject d s = .error (.py x) := by
  rw [object_run]
  have hte : t ≠ .kEndJSObject := by rintro rfl; exact he rfl
  rcases readProps_badKey (env := env) (o := JSObj.empty) (Fwd.decodeTag env f) ht hte h1 h2 with h | ⟨x, h⟩
  · exact .inl (RM.bind_error h)
  · exact .inr ⟨x, RM.bind_error h⟩

/-- `true` as a key. -/
example : loads exampleDec [0xff, 0x0f, 0x6f, 0x55, 1, 0x30, 0x54, 0x30, 0x7b, 2] = .error .decode := by decide +kernel

/-! ## C47 (decoder) -/

/-- C47: every error made by `loads` has one of the seven known names. -/
theorem C47_decoded_errors_known (env : DEnv) (d : Bytes) (v : Val) (s : DS) (h : loads env d = .ok (v, s))
    (name : Str) (message stack : Option Str) (cause : Val) (hn : .error name message stack cause ∈ s.heap) :
    ∃ k ∈ knownNames, name = str k := by
  have hok := ((loads_spec env d).1 v s h).2.1
  obtain ⟨⟨n, rfl⟩, _⟩ := hok.nodes _ hn
  cases n <;> decide

example : result (loads exampleDec [0xff, 0x0f, 0x72, 0x52, 0x2e])
    = some (.obj 0, [.error (str "RangeError") (some []) none .null], 5) := by decide +kernel

/-! ## C48 -/

/-- Items held by an object: keys and values of a Map, members of a Set, slots and named properties of
an object or array (holes of a dense array take a slot), bytes of a buffer. -/
def itemsIn : Node → Nat
  | .jsmap es => 2 * es.length
  | .jsset ms => ms.length
  | .jsobj o | .jsarr o =>
    (match o.array with
      | .dense a => a.items.length
      | .sparse a => a.items.length) + o.props.length
  | .pylist els => els.length
  | .abuf b => b.data.length
  | .rawBuf _ b => b.length
  | _ => 0

/-- Counted by `itemsIn`, the same as by the walk through the decoder. -/
theorem itemsIn_eq : itemsIn = Node.stored := by
  funext n
  cases n with
  | jsobj o => obtain ⟨a, p⟩ := o; cases a <;> rfl
  | jsarr o => obtain ⟨a, p⟩ := o; cases a <;> rfl
  | _ => rfl

/-- C48, for data that is accepted: objects, items stored in them and entries of the object log together
are at most ten times the number of bytes read.  For rejected data: `C48_rejected` in `Props/DecodeFail`. -/
theorem C48_accepted (env : DEnv) (d : Bytes) (v : Val) (s : DS) (h : loads env d = .ok (v, s)) :
    s.heap.length + (s.heap.map itemsIn).sum + s.log.slots.length ≤ 10 * d.length := by
  obtain ⟨g1, _, _, _, g2⟩ := (loads_spec env d).1 v s h
  rw [itemsIn_eq]
  unfold DS.cost at g2
  omega

/-- An array that claims 2^32-1 elements. -/
example : (loads exampleDec ([0xff, 0x0f, 0x61] ++ [0xff, 0xff, 0xff, 0xff, 0x0f] ++ [0x40, 0]
    ++ [0xff, 0xff, 0xff, 0xff, 0x0f])).toOption.map (fun r => (r.2.heap.map itemsIn)) = some [0] := by decide +kernel

end V8.Props
