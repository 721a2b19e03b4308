import Verif.Proofs.LanguageObj

/-! Buffers, views and references to them. -/

namespace V8.Lang

open V8.Spec V8.Spec.Lang

variable {α β : Type} {d : Bytes} {ver : Nat}

theorem ViewTag.size_pos (t : ViewTag) : 0 < t.size := by cases t <;> decide

theorem bounds_none (v : View) (res : Bool) (mv : Bytes) (off : Nat) (ho : v.itemOffset * v.tag.size = off)
    (hl : v.itemLength = none) : v.checkBounds res mv (off : Int) none =
      if off ≤ mv.length ∧ (res = true ∨ v.tag.size ∣ mv.length) then .ok v else .error .jsArrayBufferError := by
  have hb : v.byteOffset mv = if off ≤ mv.length then off else 0 := by
    unfold View.byteOffset View.isInRange View.region
    simp only [hl, ho]
    by_cases h : off ≤ mv.length
    · simp [h]
    · simp [h, Nat.lt_of_not_le h]
  have hm : (mv.length % v.tag.size != 0) = !decide (v.tag.size ∣ mv.length) := by
    rw [Bool.eq_iff_iff]
    simp [Nat.dvd_iff_mod_eq_zero]
  unfold View.checkBounds View.isLengthTracking
  rw [hb, hl, hm]
  simp only [Option.isNone_none, Bool.true_and]
  by_cases h : off ≤ mv.length
  · rw [if_pos h]
    by_cases hr : res = true
    · subst hr; simp [h]
    · by_cases hd : v.tag.size ∣ mv.length <;> simp [h, hr, hd]
  · have h0 : ((0 : Nat) : Int) < (off : Int) := by omega
    rw [if_neg h, if_pos h0, if_neg (c := off ≤ mv.length ∧ _) (fun hc => h hc.1)]
    split <;> rfl

theorem bounds_some (v : View) (res : Bool) (mv : Bytes) (off n : Nat) (ho : v.itemOffset * v.tag.size = off) (k : Nat)
    (hl : v.itemLength = some k) (hk : k * v.tag.size = n) : v.checkBounds res mv (off : Int) (some (n : Int)) =
      if off + n ≤ mv.length then .ok v else .error .jsArrayBufferError := by
  have hb : v.byteOffset mv = if off + n ≤ mv.length then off else 0 := by
    unfold View.byteOffset View.isInRange View.region
    simp only [hl, ho, hk]
    by_cases h : off + n ≤ mv.length
    · have h' : off ≤ mv.length := by omega
      simp [h, h', Nat.not_lt.2 h]
    · simp [h, Nat.lt_of_not_le h]
  have hc : v.byteLength mv = if off + n ≤ mv.length then n else 0 := by
    unfold View.byteLength View.bytes View.region
    simp only [hl, ho, hk]
    by_cases h : off + n ≤ mv.length
    · rw [if_neg (c := off + n > mv.length) (by omega), if_pos h]
      simp only [List.length_take, List.length_drop]
      omega
    · rw [if_pos (c := off + n > mv.length) (by omega), if_neg h]; simp
  unfold View.checkBounds
  rw [hb, hc]
  simp only [Option.isNone_some, Bool.false_and]
  by_cases h : off + n ≤ mv.length
  · simp [h]
  · rw [if_neg h, if_neg h, if_neg (by simp)]
    by_cases h0 : off = 0
    · subst h0
      have h1 : 0 < n := by omega
      have h2 : mv.length < n := by omega
      simp [h1, h2]
    · rw [if_pos (by omega : ((0 : Nat) : Int) < (off : Int)), if_neg h]

/-- When a view can be made. -/
theorem create_iff (tag : ViewTag) (res : Bool) (mv : Option Bytes) (off : Nat) (len : Option Nat) (v : View) :
    View.create tag res mv off (len.map (fun n : Nat => (n : Int))) = .ok v ↔
      tag.size ∣ off ∧ (∀ n, len = some n → tag.size ∣ n) ∧
      (∀ b, mv = some b → off + len.getD 0 ≤ b.length ∧ (len = none → res = true ∨ tag.size ∣ b.length)) ∧
      v = ⟨tag, off / tag.size, len.map (· / tag.size)⟩ := by
  unfold View.create
  simp only
  by_cases h1 : tag.size ∣ off
  swap
  · rw [if_pos (by
      intro hc
      exact h1 (Int.natCast_dvd_natCast.1 (Int.dvd_of_emod_eq_zero hc)))]
    simp [h1]
  have h1m : (off : Int) % (tag.size : Int) = 0 := Int.emod_eq_zero_of_dvd (Int.natCast_dvd_natCast.2 h1)
  rw [if_neg (by simp [h1m])]
  by_cases h2 : ∀ n, len = some n → tag.size ∣ n
  swap
  · have hany : (len.map (fun n : Nat => (n : Int))).any (fun n => n % (tag.size : Int) != 0) = true := by
      cases len with
      | none => exact absurd (fun n hn => by cases hn) h2
      | some n =>
        simp only [Option.map_some, Option.any_some, bne_iff_ne, ne_eq]
        intro hc
        apply h2
        intro m hm
        cases hm
        exact Int.natCast_dvd_natCast.1 (Int.dvd_of_emod_eq_zero hc)
    rw [if_pos hany]
    simp only [reduceCtorEq, false_iff]
    exact fun hc => h2 hc.2.1
  have hany : ¬ (len.map (fun n : Nat => (n : Int))).any (fun n => n % (tag.size : Int) != 0) = true := by
    cases len with
    | none => simp
    | some n =>
      simp only [Option.map_some, Option.any_some, bne_iff_ne, ne_eq, Decidable.not_not]
      exact Int.emod_eq_zero_of_dvd (Int.natCast_dvd_natCast.2 (h2 n rfl))
  rw [if_neg hany]
  have hmk : View.mk' tag ((off : Int) / tag.size) ((len.map (fun n : Nat => (n : Int))).map (· / (tag.size : Int)))
      = .ok ⟨tag, off / tag.size, len.map (· / tag.size)⟩ := by
    have e1 : ((off : Int) / (tag.size : Int)) = ((off / tag.size : Nat) : Int) := (Int.natCast_ediv off tag.size).symm
    unfold View.mk'
    rw [e1, if_neg (Int.not_lt.2 (Int.natCast_nonneg _))]
    cases len with
    | none => rfl
    | some n =>
      have e2 : ((n : Int) / (tag.size : Int)) = ((n / tag.size : Nat) : Int) := (Int.natCast_ediv n tag.size).symm
      simp only [Option.map_some]
      rw [e2, if_neg (Int.not_lt.2 (Int.natCast_nonneg _))]
      rfl
  rw [hmk]
  have ho : off / tag.size * tag.size = off := Nat.div_mul_cancel h1
  cases mv with
  | none =>
    simp only [Except.ok.injEq]
    constructor
    · rintro rfl; exact ⟨h1, h2, (fun b hb => by cases hb), rfl⟩
    · rintro ⟨-, -, -, rfl⟩; rfl
  | some b =>
    cases len with
    | none =>
      simp only [Option.map_none]
      rw [bounds_none ⟨tag, off / tag.size, none⟩ res b off ho rfl]
      simp only
      split
      · rename_i h
        simp only [Except.ok.injEq]
        constructor
        · rintro rfl
          exact ⟨h1, (fun n hn => by cases hn), fun b' hb => by cases hb; exact ⟨h.1, fun _ => h.2⟩, rfl⟩
        · rintro ⟨-, -, -, rfl⟩; rfl
      · rename_i h
        constructor
        · intro hc; cases hc
        · rintro ⟨-, -, hb, -⟩
          exact absurd ⟨(hb b rfl).1, (hb b rfl).2 trivial⟩ h
    | some n =>
      have hn : n / tag.size * tag.size = n := Nat.div_mul_cancel (h2 n rfl)
      simp only [Option.map_some]
      rw [bounds_some ⟨tag, off / tag.size, some (n / tag.size)⟩ res b off n ho (n / tag.size) rfl hn]
      split
      · rename_i h
        simp only [Except.ok.injEq]
        constructor
        · rintro rfl
          exact ⟨h1, (fun m hm => h2 m (by rw [hm])), fun b' hb => by cases hb; exact ⟨h, fun hc => by cases hc⟩, rfl⟩
        · rintro ⟨-, -, -, rfl⟩; rfl
      · rename_i h
        constructor
        · intro hc; cases hc
        · rintro ⟨-, -, hb, -⟩
          exact absurd (hb b rfl).1 h

theorem isBuffer_iff (h : Heap) (v : Val) : isBuffer h v = true ↔ IsBuffer h v := by
  unfold isBuffer IsBuffer
  split
  · rename_i i
    split
    · rename_i b hx; exact ⟨fun _ => ⟨i, _, rfl, hx, .inl ⟨b, rfl⟩⟩, fun _ => rfl⟩
    · rename_i b hx; exact ⟨fun _ => ⟨i, _, rfl, hx, .inr (.inl ⟨b, rfl⟩)⟩, fun _ => rfl⟩
    · rename_i b hx; exact ⟨fun _ => ⟨i, _, rfl, hx, .inr (.inr ⟨b, rfl⟩)⟩, fun _ => rfl⟩
    · rename_i h1 h2 h3
      simp only [Bool.false_eq_true, false_iff]
      rintro ⟨j, n, hj, hn, hk⟩
      cases hj
      rcases hk with ⟨b, rfl⟩ | ⟨b, rfl⟩ | ⟨b, rfl⟩
      · exact h1 b hn
      · exact h2 b hn
      · exact h3 b hn
  · rename_i hne
    simp only [Bool.false_eq_true, false_iff]
    rintro ⟨i, n, rfl, -⟩
    exact hne i rfl

theorem backing_eq {h : Heap} {v : Val} (hb : IsBuffer h v) :
    backingBytes h v = contents h v ∧ (backingResizable h v = true ↔ growable h v) := by
  obtain ⟨i, n, rfl, hi, hn⟩ := hb
  unfold backingBytes contents backingResizable growable
  rcases hn with ⟨b, rfl⟩ | ⟨k, rfl⟩ | ⟨k, rfl⟩ <;> simp [hi, ABuf.exposed]

theorem flags_spec (n : Nat) : RMSpec d ver (V8.readViewFlags n) (fun w i a w' r => ViewFlags n i a r ∧ w' = w) := by
  unfold V8.readViewFlags
  refine (RMSpec.ite ((RMSpec.lift number_spec).bind fun x => RMSpec.orRaise (flagMember 3 x)) (RMSpec.pure 0)).congr
    fun w i a w' r => ?_
  unfold ViewFlags
  split
  · constructor
    · rintro ⟨x, w1, m, ⟨h1, rfl⟩, h2, rfl, rfl⟩
      obtain rfl := flagMember_ok h2
      exact ⟨⟨h1, h2⟩, rfl⟩
    · rintro ⟨⟨h1, h2⟩, rfl⟩
      exact ⟨a, _, _, ⟨h1, rfl⟩, h2, rfl, rfl⟩
  · constructor
    · rintro ⟨rfl, rfl, rfl⟩; exact ⟨⟨rfl, rfl⟩, rfl⟩
    · rintro ⟨⟨rfl, rfl⟩, rfl⟩; exact ⟨rfl, rfl, rfl⟩

theorem viewTag_spec (raw : Nat) :
    RMSpec d ver (viewTagOf raw) (fun w i t w' r => t.code = raw ∧ w' = w ∧ r = i) := by
  have hc : ∀ t : ViewTag, ViewTag.ofCode t.code = some t := by intro t; cases t <;> decide
  have hs : ∀ t : ViewTag, ViewTag.ofCode raw = some t → t.code = raw := by
    intro t ht
    have := List.find?_some ht
    simpa using this
  unfold viewTagOf
  cases h : ViewTag.ofCode raw with
  | none =>
    refine (RMSpec.fail _).congr fun w i t w' r => ⟨False.elim, ?_⟩
    rintro ⟨rfl, -⟩
    rw [hc] at h
    cases h
  | some t =>
    refine (RMSpec.pure t).congr fun w i t' w' r => ?_
    constructor
    · rintro ⟨rfl, rfl, rfl⟩; exact ⟨hs _ h, rfl, rfl⟩
    · rintro ⟨rfl, rfl, rfl⟩
      rw [hc] at h
      cases h
      exact ⟨rfl, rfl, rfl⟩

theorem viewByteLength_eq (flags n : Nat) : viewByteLength flags n =
    (if flags % 2 = 1 then none else some n : Option Nat).map (fun n : Nat => (n : Int)) := by
  unfold viewByteLength
  split <;> rfl

/-- A view where there is one; the first byte is its tag. -/
theorem view_spec (buffer : Val) : RMSpec d ver (readView buffer) (fun w i v w' r =>
    ∃ (k : Nat) (kind : ViewTag) (offset length flags : Nat) (view : View) (m1 m2 m3 m4 : Bytes),
      i = List.replicate k 0 ++ Tag.kArrayBufferView.byte :: m1 ∧
      Number m1 kind.code m2 ∧ Number32 m2 offset m3 ∧ Number32 m3 length m4 ∧ ViewFlags ver m4 flags r ∧
      View.create kind (backingResizable w.heap buffer) (backingBytes w.heap buffer) offset
        (viewByteLength flags length) = .ok view ∧
      v = w.next ∧ w' = w.make (.view buffer view)) := by
  unfold readView
  refine ((RMSpec.lift (tag_spec _)).bind fun _ => (RMSpec.lift number_spec).bind fun raw => (viewTag_spec raw).bind
    fun tag => (RMSpec.lift number32_spec).bind fun off => (RMSpec.lift number32_spec).bind fun len =>
    RMSpec.getVersion.bind fun version => (flags_spec version).bind fun flags => RMSpec.getHeap.bind fun h =>
    (RMSpec.orRaise (View.create tag (backingResizable h buffer) (backingBytes h buffer) off
      (viewByteLength flags len))).bind fun v => make_spec (.view buffer v)).congr fun w i v w' r => ?_
  constructor
  · rintro ⟨t, w1, m1, ⟨⟨⟨k, h0, h1⟩, h2⟩, rfl⟩, raw, w2, m2, ⟨h3, rfl⟩, kind, w3, m3, ⟨rfl, rfl, rfl⟩, off, w4, m4,
      ⟨h4, rfl⟩, len, w5, m5, ⟨h5, rfl⟩, version, w6, m6, ⟨rfl, rfl, rfl⟩, flags, w7, m7, ⟨h6, rfl⟩, h, w8, m8,
      ⟨rfl, rfl, rfl⟩, view, w9, m9, ⟨h7, rfl, rfl⟩, rfl, rfl, rfl⟩
    have : t = .kArrayBufferView := by simpa using h2
    subst this
    exact ⟨k, kind, off, len, flags, view, _, _, _, _, h1, h3, h4, h5, h6, h7, rfl, rfl⟩
  · rintro ⟨k, kind, off, len, flags, view, m1, m2, m3, m4, h1, h3, h4, h5, h6, h7, rfl, rfl⟩
    exact ⟨.kArrayBufferView, w, m1, ⟨⟨⟨k, by decide, h1⟩, by simp⟩, rfl⟩, _, _, _, ⟨h3, rfl⟩, kind, _, _, ⟨rfl, rfl, rfl⟩,
      off, _, _, ⟨h4, rfl⟩, len, _, _, ⟨h5, rfl⟩, ver, _, _, ⟨rfl, rfl, rfl⟩, flags, _, _, ⟨h6, rfl⟩, _, _, _,
      ⟨rfl, rfl, rfl⟩, view, _, _, ⟨h7, rfl, rfl⟩, rfl, rfl, rfl⟩

theorem peak_spec : RdSpec peakIsView (fun i b r =>
    (b = true ↔ i.head? = some Tag.kArrayBufferView.byte) ∧ r = i) := by
  have key : ∀ (d : Bytes) (p : Nat), p ≤ d.length → peakIsView d p =
      .ok (decide ((d.drop p).head? = some Tag.kArrayBufferView.byte), p) := by
    intro d p hp
    unfold peakIsView
    by_cases hl : p = d.length
    · rw [Rd.bind_ok (a := none) (p' := p) (show peakTag d p = _ by unfold peakTag; rw [if_pos hl])]
      subst hl
      simp
    · have hlt : p < d.length := by omega
      have hg : d[p]? = some d[p] := List.getElem?_eq_getElem hlt
      rw [Rd.bind_ok (a := Tag.ofByte d[p]) (p' := p) (show peakTag d p = _ by unfold peakTag; rw [if_neg hl, hg])]
      have hh : (d.drop p).head? = some d[p] := by rw [List.drop_eq_getElem_cons hlt]; rfl
      simp only [Rd.pure_apply, Except.ok.injEq, Prod.mk.injEq, and_true]
      refine decide_eq_decide.2 ?_
      rw [hh]
      constructor
      · intro h; rw [Tag.byte_of_ofByte h]
      · intro h
        simp only [Option.some.injEq] at h
        rw [h, Tag.ofByte_byte]
  constructor
  · intro d p b p' hp h
    rw [key d p hp] at h
    simp only [Except.ok.injEq, Prod.mk.injEq] at h
    obtain ⟨rfl, rfl⟩ := h
    exact ⟨hp, by simp, rfl⟩
  · rintro d p b r hp ⟨h1, rfl⟩
    refine ⟨p, ?_, hp, rfl⟩
    rw [key d p hp]
    congr 2
    rw [Bool.eq_iff_iff]
    simp [h1]

theorem viewOpt_spec (buffer : Val) : RMSpec d ver (viewAfter buffer) (fun w i v w' r =>
    (i.head? ≠ some Tag.kArrayBufferView.byte ∧ v = buffer ∧ w' = w ∧ r = i) ∨
    (∃ (kind : ViewTag) (offset length flags : Nat) (view : View) (m1 m2 m3 m4 : Bytes),
      i = Tag.kArrayBufferView.byte :: m1 ∧
      Number m1 kind.code m2 ∧ Number32 m2 offset m3 ∧ Number32 m3 length m4 ∧ ViewFlags ver m4 flags r ∧
      View.create kind (backingResizable w.heap buffer) (backingBytes w.heap buffer) offset
        (viewByteLength flags length) = .ok view ∧
      v = w.next ∧ w' = w.make (.view buffer view))) := by
  unfold viewAfter
  refine ((RMSpec.lift peak_spec).bind fun b => RMSpec.ite (view_spec buffer) (RMSpec.pure buffer)).congr
    fun w i v w' r => ?_
  constructor
  · rintro ⟨b, w1, m, ⟨⟨h1, rfl⟩, rfl⟩, h2⟩
    by_cases hb : b = true
    · rw [if_pos hb] at h2
      right
      obtain ⟨k, kind, off, len, flags, view, m1, m2, m3, m4, g1, g⟩ := h2
      have hh := h1.1 hb
      rw [g1] at hh
      cases k with
      | zero => exact ⟨kind, off, len, flags, view, m1, m2, m3, m4, by simpa using g1, g⟩
      | succ k => simp [List.replicate_succ, Tag.byte] at hh
    · rw [if_neg hb] at h2
      left
      obtain ⟨rfl, rfl, rfl⟩ := h2
      exact ⟨fun hc => hb (h1.2 hc), rfl, rfl, rfl⟩
  · rintro (⟨h, rfl, rfl, rfl⟩ | ⟨kind, off, len, flags, view, m1, m2, m3, m4, g1, g⟩)
    · exact ⟨false, _, _, ⟨⟨by simpa using h, rfl⟩, rfl⟩, by rw [if_neg (by simp)]; exact ⟨rfl, rfl, rfl⟩⟩
    · refine ⟨true, w, i, ⟨⟨by simp [g1], rfl⟩, rfl⟩, ?_⟩
      rw [if_pos rfl]
      exact ⟨0, kind, off, len, flags, view, m1, m2, m3, m4, by simpa using g1, g⟩

theorem viewOpt_iff {buffer : Val} {w : World} (hb : IsBuffer w.heap buffer) (i : Bytes) (v : Val) (w' : World) (r : Bytes) :
    ((i.head? ≠ some Tag.kArrayBufferView.byte ∧ v = buffer ∧ w' = w ∧ r = i) ∨
    (∃ (kind : ViewTag) (offset length flags : Nat) (view : View) (m1 m2 m3 m4 : Bytes),
      i = Tag.kArrayBufferView.byte :: m1 ∧
      Number m1 kind.code m2 ∧ Number32 m2 offset m3 ∧ Number32 m3 length m4 ∧ ViewFlags ver m4 flags r ∧
      View.create kind (backingResizable w.heap buffer) (backingBytes w.heap buffer) offset
        (viewByteLength flags length) = .ok view ∧
      v = w.next ∧ w' = w.make (.view buffer view))) ↔ ViewOpt ver buffer w i v w' r := by
  obtain ⟨e1, e2⟩ := backing_eq hb
  constructor
  · rintro (⟨h, rfl, rfl, rfl⟩ | ⟨kind, off, len, flags, view, m1, m2, m3, m4, g1, g2, g3, g4, g5, g6, rfl, rfl⟩)
    · exact .none _ _ h
    · rw [viewByteLength_eq, create_iff] at g6
      obtain ⟨k1, k2, k3, rfl⟩ := g6
      refine .view ⟨kind, off, len, flags, m1, m2, m3, m4, g1, g2, g3, g4, g5, ⟨k1, k2, ?_⟩, rfl, ?_⟩
      · intro b hb'
        obtain ⟨q1, q2⟩ := k3 b (e1.trans hb')
        exact ⟨q1, fun hn => (q2 hn).imp e2.1 id⟩
      · split <;> rfl
  · rintro (⟨h⟩ | ⟨⟨kind, off, len, flags, m1, m2, m3, m4, g1, g2, g3, g4, g5, ⟨k1, k2, k3⟩, rfl, rfl⟩⟩)
    · rename_i h; exact .inl ⟨h, rfl, rfl, rfl⟩
    · refine .inr ⟨kind, off, len, flags, _, m1, m2, m3, m4, g1, g2, g3, g4, g5, ?_, rfl, rfl⟩
      rw [viewByteLength_eq, create_iff]
      refine ⟨k1, k2, ?_, ?_⟩
      · intro b hb'
        obtain ⟨q1, q2⟩ := k3 b (e1 ▸ hb')
        exact ⟨q1, fun hn => (q2 hn).imp e2.2 id⟩
      · split <;> rfl

theorem isBuffer_last (h : Heap) (n : Node) (hn : (∃ b, n = .abuf b) ∨ (∃ k, n = .sharedBuf k) ∨ (∃ k, n = .transferBuf k)) :
    IsBuffer (h ++ [n]) (.obj h.length) := ⟨h.length, n, rfl, by simp, hn⟩

theorem reference_spec : RMSpec d ver decodeReference (ReferenceBody ver) := by
  unfold decodeReference
  refine ((RMSpec.lift number_spec).bind fun n => (RMSpec.lookupD n).bind fun v => RMSpec.getHeap.bind fun h =>
    RMSpec.ite (viewOpt_spec v) (RMSpec.pure v)).congr fun w i v w' r => ?_
  unfold ReferenceBody
  constructor
  · rintro ⟨n, w1, m, ⟨h1, rfl⟩, x, w2, m2, ⟨h2, rfl, rfl⟩, h, w3, m3, ⟨rfl, rfl, rfl⟩, h3⟩
    refine ⟨n, _, x, h1, h2, ?_⟩
    by_cases hb : IsBuffer w3.heap x
    · rw [if_pos ((isBuffer_iff _ _).2 hb)] at h3
      exact .inl ⟨hb, (viewOpt_iff hb _ _ _ _).1 h3⟩
    · rw [if_neg (fun hc => hb ((isBuffer_iff _ _).1 hc))] at h3
      exact .inr ⟨hb, h3⟩
  · rintro ⟨n, m, x, h1, h2, h3⟩
    refine ⟨n, _, _, ⟨h1, rfl⟩, x, _, _, ⟨h2, rfl, rfl⟩, _, _, _, ⟨rfl, rfl, rfl⟩, ?_⟩
    rcases h3 with ⟨hb, h3⟩ | ⟨hb, h3⟩
    · rw [if_pos ((isBuffer_iff _ _).2 hb)]
      exact (viewOpt_iff hb _ _ _ _).2 h3
    · rw [if_neg (fun hc => hb ((isBuffer_iff _ _).1 hc))]
      exact h3

theorem checkFits_spec (n : Nat) : RdSpec (checkFits n >>= fun _ => takeHere n) (Data n) := by
  constructor
  · intro d p a p' hp h
    obtain ⟨_, p1, h1, h2⟩ := Rd.bind_eq_ok h
    unfold checkFits at h1
    split at h1
    · simp at h1
    simp only [Except.ok.injEq, Prod.mk.injEq, true_and] at h1
    subst h1
    simp only [takeHere, Except.ok.injEq, Prod.mk.injEq] at h2
    obtain ⟨rfl, rfl⟩ := h2
    refine ⟨by omega, by rw [List.length_take, List.length_drop]; omega, ?_⟩
    rw [← List.drop_drop, List.take_append_drop]
  · rintro d p a r hp ⟨rfl, h⟩
    obtain ⟨h1, h2⟩ := drop_split hp h
    refine ⟨p + a.length, ?_, h1, h2.symm⟩
    rw [Rd.bind_ok (show checkFits a.length d p = .ok ((), p) by unfold checkFits; rw [if_neg (by omega)])]
    simp only [takeHere, h, List.take_left']

theorem fixed_spec : RMSpec d ver (decodeArrayBuffer .kArrayBuffer) (FixedBody ver) := by
  have h1 : RdSpec readFixedContents (fun i bs r => ∃ n m, Number32 i n m ∧ Data n m bs r) :=
    number32_spec.bind fun n => checkFits_spec n
  have h2 : RMSpec d ver readFixedBuffer (fun w i v w' r => ∃ bs m, Number32 i bs.length m ∧ Data bs.length m bs r ∧
      v = w.next ∧ w' = w.make (.abuf ⟨bs, bs.length, false⟩)) := by
    unfold readFixedBuffer
    refine ((RMSpec.lift h1).bind fun bs => (RMSpec.orRaise (ABuf.mk' bs none false false)).bind
      fun b => make_spec (.abuf b)).congr fun w i v w' r => ?_
    constructor
    · rintro ⟨bs, w1, m1, ⟨⟨n, m, g1, g2⟩, rfl⟩, b, w2, m2, ⟨g3, rfl, rfl⟩, rfl, rfl, rfl⟩
      rw [ABuf.mk'_fixed] at g3
      cases g3
      obtain ⟨rfl, g2⟩ := g2
      exact ⟨bs, m, g1, ⟨rfl, g2⟩, rfl, rfl⟩
    · rintro ⟨bs, m, g1, g2, rfl, rfl⟩
      exact ⟨bs, _, _, ⟨⟨_, _, g1, g2⟩, rfl⟩, _, _, _, ⟨ABuf.mk'_fixed bs, rfl, rfl⟩, rfl, rfl, rfl⟩
  unfold decodeArrayBuffer
  refine (RMSpec.bind (x := readArrayBuffer .kArrayBuffer) h2 fun b => viewOpt_spec b).congr fun w i v w' r => ?_
  unfold FixedBody
  constructor
  · rintro ⟨x, w1, m1, ⟨bs, m, g1, g2, rfl, rfl⟩, g3⟩
    exact ⟨bs, m, m1, g1, g2, (viewOpt_iff (isBuffer_last _ _ (.inl ⟨_, rfl⟩)) _ _ _ _).1 g3⟩
  · rintro ⟨bs, m, m1, g1, g2, g3⟩
    exact ⟨_, _, m1, ⟨bs, m, g1, g2, rfl, rfl⟩, (viewOpt_iff (isBuffer_last _ _ (.inl ⟨_, rfl⟩)) _ _ _ _).2 g3⟩

theorem elsewhere_spec (node : Int → Node) (hn : ∀ k, (∃ j, node k = .sharedBuf j) ∨ (∃ j, node k = .transferBuf j))
    {x : RM Val} (hx : x = (do let n ← RM.lift readUint32; let i ← V8.alloc (node n); return .obj i)) :
    RMSpec d ver (x >>= viewAfter) (ElsewhereBody ver node) := by
  subst hx
  refine (((RMSpec.lift number32_spec).bind fun n => (RMSpec.alloc (node n)).bind fun j => RMSpec.pure (Val.obj j)).bind
    fun b => viewOpt_spec b).congr fun w i v w' r => ?_
  unfold ElsewhereBody
  constructor
  · rintro ⟨x, w1, m1, ⟨n, w2, m2, ⟨g1, rfl⟩, j, w3, m3, ⟨rfl, rfl, rfl⟩, rfl, rfl, rfl⟩, g3⟩
    exact ⟨n, _, g1, (viewOpt_iff (isBuffer_last _ _ (.inr (hn n))) _ _ _ _).1 g3⟩
  · rintro ⟨n, m, g1, g3⟩
    exact ⟨_, _, _, ⟨n, _, _, ⟨g1, rfl⟩, _, _, _, ⟨rfl, rfl, rfl⟩, rfl, rfl, rfl⟩,
      (viewOpt_iff (isBuffer_last _ _ (.inr (hn n))) _ _ _ _).2 g3⟩

theorem nodeView_spec (code : Nat) :
    RdSpec (nodeViewTag code) (fun i t r => nodeKinds[code]? = some t ∧ r = i) := by
  have hk : nodeViewOfCode code = nodeKinds[code]? := by
    by_cases hc : code < 13
    · have : ∀ c < 13, nodeViewOfCode c = nodeKinds[c]? := by decide
      exact this code hc
    · rw [List.getElem?_eq_none (by show 13 ≤ code; omega)]
      unfold nodeViewOfCode
      rw [List.find?_eq_none.2 ?_]
      · rfl
      · intro e he
        have : ∀ e ∈ nodeFormats, e.1 < 13 := by decide
        have := this e he
        simp
        omega
  unfold nodeViewTag
  rw [hk]
  cases h : nodeKinds[code]? with
  | none => exact (RdSpec.fail _).congr fun i t r => by simp
  | some t => exact (RdSpec.pure t).congr fun i t' r => by simp [eq_comm]

theorem node_spec : RMSpec d ver decodeNodeHostObject NodeBody := by
  have h1 : RdSpec readNodeContents (fun i (p : ViewTag × Bytes) r => ∃ code m1 n m2, Number32 i code m1 ∧ Number32 m1 n m2 ∧
      nodeKinds[code]? = some p.1 ∧ Data n m2 p.2 r) := by
    unfold readNodeContents
    have hc : ∀ (t : ViewTag) (n : Nat), RdSpec (do checkFits n; let bs ← takeHere n; return (t, bs))
        (fun i (p : ViewTag × Bytes) r => p.1 = t ∧ Data n i p.2 r) := by
      intro t n
      have hassoc : (do checkFits n; let bs ← takeHere n; return (t, bs) : Rd (ViewTag × Bytes)) =
          ((checkFits n >>= fun _ => takeHere n) >>= fun bs => Pure.pure (t, bs)) := by
        funext d p
        show Rd.bind _ _ d p = Rd.bind (Rd.bind _ _) _ d p
        unfold Rd.bind
        cases checkFits n d p <;> rfl
      rw [hassoc]
      refine ((checkFits_spec n).bind fun bs => RdSpec.pure (t, bs)).congr fun i p r => ?_
      constructor
      · rintro ⟨bs, m, g1, rfl, rfl⟩; exact ⟨rfl, g1⟩
      · obtain ⟨t', bs⟩ := p
        rintro ⟨rfl, g1⟩
        exact ⟨bs, r, g1, rfl, rfl⟩
    refine (number32_spec.bind fun code => number32_spec.bind fun n => (nodeView_spec code).bind fun t => hc t n).congr
      fun i p r => ?_
    constructor
    · rintro ⟨code, m1, g1, n, m2, g2, t, m3, ⟨g3, rfl⟩, rfl, g4⟩
      exact ⟨code, m1, n, _, g1, g2, g3, g4⟩
    · rintro ⟨code, m1, n, m2, g1, g2, g3, g4⟩
      exact ⟨code, m1, g1, n, m2, g2, p.1, m2, ⟨g3, rfl⟩, rfl, g4⟩
  unfold decodeNodeHostObject
  refine ((RMSpec.lift h1).bind fun p => (RMSpec.orRaise (ABuf.mk' p.2 none false false)).bind fun b =>
    (RMSpec.alloc (.abuf b)).bind fun j => (RMSpec.orRaise (View.mk' p.1 0 none)).bind fun view =>
    (RMSpec.alloc (.view (.obj j) view)).bind fun k => RMSpec.pure _).congr fun w i v w' r => ?_
  unfold NodeBody
  constructor
  · rintro ⟨⟨kind, bs⟩, w1, m1, ⟨⟨code, n1, n, n2, g1, g2, g3, g4⟩, rfl⟩, b, w2, m2, ⟨g5, rfl, rfl⟩, j, w3, m3, ⟨rfl, rfl, rfl⟩,
      view, w4, m4, ⟨g6, rfl, rfl⟩, k, w5, m5, ⟨rfl, rfl, rfl⟩, rfl, rfl, rfl⟩
    rw [ABuf.mk'_fixed] at g5
    cases g5
    cases g6
    obtain ⟨rfl, g4⟩ := g4
    exact ⟨code, kind, bs, _, _, g1, g3, g2, ⟨rfl, g4⟩, rfl, rfl⟩
  · rintro ⟨code, kind, bs, n1, n2, g1, g3, g2, g4, rfl, rfl⟩
    exact ⟨(kind, bs), _, _, ⟨⟨code, n1, _, n2, g1, g2, g3, g4⟩, rfl⟩, _, _, _, ⟨ABuf.mk'_fixed bs, rfl, rfl⟩, _, _, _,
      ⟨rfl, rfl, rfl⟩, _, _, _, ⟨rfl, rfl, rfl⟩, _, _, _, ⟨rfl, rfl, rfl⟩, rfl, rfl, rfl⟩

/-- What follows the contents of a resizable buffer, if they are there. -/
theorem resizableRest_spec (bs : Bytes) (max : Nat) (hm : bs.length ≤ max) : RMSpec d ver ((do
      let b ← V8.orRaise (ABuf.mk' bs (some (max : Int)) true false)
      let i ← V8.alloc (.abuf b)
      let _ ← V8.recordD (.obj i)
      return .obj i : RM Val) >>= viewAfter)
    (fun w i v w' r => ViewOpt ver w.next (w.make (.abuf ⟨bs, max, true⟩)) i v w' r) := by
  refine (((RMSpec.orRaise (ABuf.mk' bs (some (max : Int)) true false)).bind
      fun b => make_spec (.abuf b)).bind fun b => viewOpt_spec b).congr fun w i v w' r => ?_
  rw [ABuf.mk'_resizable _ _ hm]
  constructor
  · rintro ⟨x, w1, m1, ⟨b, w2, m2, ⟨g3, rfl, rfl⟩, rfl, rfl, rfl⟩, g4⟩
    cases g3
    exact (viewOpt_iff (isBuffer_last _ _ (.inl ⟨_, rfl⟩)) _ _ _ _).1 g4
  · intro g4
    exact ⟨_, _, _, ⟨_, _, _, ⟨rfl, rfl, rfl⟩, rfl, rfl, rfl⟩, (viewOpt_iff (isBuffer_last _ _ (.inl ⟨_, rfl⟩)) _ _ _ _).2 g4⟩

theorem readResizable_ok {d : Bytes} {p : Nat} {x : Bytes × Nat} {p' : Nat} (hp : p ≤ d.length)
    (h : readResizableContents d p = .ok (x, p')) : ∃ m1 m2 n p3, Number32 (d.drop p) n m1 ∧ Number32 m1 x.2 m2 ∧
      n ≤ x.2 ∧ p3 ≤ d.length ∧ m2 = d.drop p3 ∧ p' = p3 + n ∧ x.1 = m2.take n := by
  unfold readResizableContents at h
  obtain ⟨n, p1, h1, h⟩ := Rd.bind_eq_ok h
  obtain ⟨g1, g2⟩ := number32_spec.sound _ _ _ _ hp h1
  obtain ⟨_, p2, h2, h⟩ := Rd.bind_eq_ok h
  unfold checkFitsResizable at h2
  split at h2
  · cases h2
  simp only [Except.ok.injEq, Prod.mk.injEq, true_and] at h2
  subst h2
  obtain ⟨max, p3, h3, h⟩ := Rd.bind_eq_ok h
  obtain ⟨g3, g4⟩ := number32_spec.sound _ _ _ _ g1 h3
  obtain ⟨_, p4, h4, h⟩ := Rd.bind_eq_ok h
  unfold checkMax at h4
  split at h4
  · cases h4
  cases h4
  cases h
  exact ⟨_, _, n, p3, g2, g4, by omega, g3, rfl, rfl, rfl⟩

theorem readResizable_complete {d : Bytes} {p : Nat} {bs : Bytes} {max : Nat} {m1 m2 r : Bytes} (hp : p ≤ d.length)
    (h1 : Number32 (d.drop p) bs.length m1) (h2 : Number32 m1 max m2) (hm : bs.length ≤ max)
    (h3 : Data bs.length m2 bs r) : ∃ p', readResizableContents d p = .ok ((bs, max), p') ∧ p' ≤ d.length ∧ d.drop p' = r := by
  obtain ⟨p1, a1, a2, a3⟩ := number32_spec.complete _ _ _ _ hp h1
  have h2' := h2
  rw [a3] at h2
  obtain ⟨p3, b1, b2, b3⟩ := number32_spec.complete _ _ _ _ a2 h2
  obtain ⟨-, h3⟩ := h3
  rw [h3] at b3
  have b3 := b3.symm
  obtain ⟨c1, c2⟩ := drop_split b2 b3
  have hfit : p1 + bs.length < d.length := by
    obtain ⟨vs, v1, -, -, v2⟩ := h2'
    have hv : 0 < vs.length := by cases v1 <;> simp
    have : (d.drop p1).length = vs.length + (bs.length + r.length) := by rw [← a3, v2, h3]; simp
    rw [List.length_drop] at this
    omega
  refine ⟨p3 + bs.length, ?_, c1, c2⟩
  unfold readResizableContents
  rw [Rd.bind_ok a1, Rd.bind_ok (show checkFitsResizable bs.length d p1 = .ok ((), p1) by
      unfold checkFitsResizable; rw [if_neg (by omega)]), Rd.bind_ok b1,
    Rd.bind_ok (show checkMax max bs.length d p3 = .ok ((), p3) by unfold checkMax; rw [if_neg (by omega)]; rfl),
    Rd.bind_ok (show takeHere bs.length d p3 = .ok (bs, p3 + bs.length) by simp only [takeHere, b3, List.take_left'])]
  rfl

theorem resizable_spec : RMSpec d ver (decodeArrayBuffer .kResizableArrayBuffer) (ResizableBody ver) := by
  constructor
  · intro s w i v s' ha h
    unfold V8.decodeArrayBuffer readArrayBuffer readResizableBuffer at h
    cases hc : readResizableContents d s.pos with
    | error e => rw [RM.bind_error (RM.bind_error (RM.lift_error hc))] at h; cases h
    | ok x =>
      obtain ⟨⟨bs, max⟩, p'⟩ := x
      rw [RM.bind_congr_first (RM.bind_ok (RM.lift_ok hc))] at h
      obtain ⟨m1, m2, n, p3, g1, g2, g3, g4, rfl, rfl, g5⟩ := readResizable_ok ha.inside hc
      simp only at g5 g2 g3
      have hbs : bs.length ≤ max := by rw [g5, List.length_take]; omega
      by_cases hle : p3 + n ≤ d.length
      · have ha' : At d ver { s with pos := p3 + n } w (d.drop (p3 + n)) := ⟨hle, rfl, ha.heap, ha.slots, ha.version⟩
        obtain ⟨w', r, k1, k2⟩ := (resizableRest_spec bs max hbs).sound _ _ _ _ _ ha' h
        have hlen : bs.length = n := by rw [g5, List.length_take, List.length_drop]; omega
        subst hlen
        refine ⟨w', r, k1, bs, max, m1, _, _, ha.bytes ▸ g1, g2, hbs, ⟨rfl, ?_⟩, k2⟩
        conv => lhs; rw [← List.take_append_drop bs.length (d.drop p3)]
        rw [← g5, List.drop_drop]
      · obtain ⟨x, s1, h1, h2⟩ := resizableRest_ok (d := d) (bs, max) hbs { s with pos := p3 + n }
        rw [RM.bind_ok h1] at h
        have h3 : peakIsView d s1.pos = .error (.py .indexError) := by
          rw [h2]
          refine Rd.bind_error ?_
          unfold peakTag
          rw [if_neg (by show ¬ (p3 + n = d.length); omega)]
          rw [List.getElem?_eq_none (by show d.length ≤ p3 + n; omega)]
        unfold V8.viewAfter at h
        rw [RM.bind_error (RM.lift_error h3)] at h
        cases h
  · rintro s w i v w' r ha ⟨bs, max, m1, m2, m3, g1, g2, g3, g4, g5⟩
    obtain ⟨p', k1, k2, k3⟩ := readResizable_complete ha.inside (ha.bytes.symm ▸ g1) g2 g3 g4
    have ha' : At d ver { s with pos := p' } w m3 := ⟨k2, k3, ha.heap, ha.slots, ha.version⟩
    obtain ⟨s', j1, j2⟩ := (resizableRest_spec bs max g3).complete _ _ _ _ _ _ ha' g5
    refine ⟨s', ?_, j2⟩
    unfold V8.decodeArrayBuffer readArrayBuffer readResizableBuffer
    rw [RM.bind_congr_first (RM.bind_ok (RM.lift_ok k1))]
    exact j1

end V8.Lang
