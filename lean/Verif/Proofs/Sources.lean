import Verif.Spec.Sources

/-!
# Readers over arrays and memoryviews: proofs
-/

namespace V8.Source

open V8 V8.Spec.Sources

/-- `x` on `s` does what `r` does on `b`, or (if `E`) raises BufferError. -/
def Rel {α : Type} (E : Bool) (b : Bytes) (s : Src) (x : Rx α) (r : Rd α) : Prop :=
  ∀ p, x s p = lift (r b p) ∨ (E = true ∧ x s p = .error .bufferError)

section
variable {α β : Type} {E : Bool} {b : Bytes} {s : Src}

theorem Rel.bind {x : Rx α} {r : Rd α} {f : α → Rx β} {g : α → Rd β} (h : Rel E b s x r)
    (hf : ∀ a, Rel E b s (f a) (g a)) : Rel E b s (x >>= f) (r >>= g) := by
  intro p
  show Rx.bind x f s p = lift (Rd.bind r g b p) ∨ (E = true ∧ Rx.bind x f s p = .error .bufferError)
  unfold Rx.bind Rd.bind
  rcases h p with h | ⟨hE, h⟩
  · rw [h]
    cases hr : r b p with
    | error e => exact .inl rfl
    | ok y => exact hf y.1 y.2
  · rw [h]
    exact .inr ⟨hE, rfl⟩

theorem Rel.pure (a : α) : Rel E b s (Pure.pure a) (Pure.pure a) := fun _ => .inl rfl

theorem Rel.fail (e : DErr) : Rel E b s (Rx.fail (.base e) : Rx α) (Rd.fail e) := fun _ => .inl rfl

theorem Rel.throw : Rel E b s (throwX : Rx α) throwD := fun _ => .inl rfl

theorem Rel.ite {c : Prop} [Decidable c] {x y : Rx α} {r q : Rd α} (h : Rel E b s x r) (h' : Rel E b s y q) :
    Rel E b s (if c then x else y) (if c then r else q) := by
  by_cases hc : c <;> simp only [hc, if_true, if_false] <;> assumption

theorem count_onePerItem (h : OnePerItem b s) : s.count = b.length := by
  have := congrArg List.length h
  simpa [Src.items, Src.count] using this

theorem Rel.capacity (h : OnePerItem b s) (n : Nat) : Rel E b s (ensureCapacity n) (V8.ensureCapacity n) := by
  intro p
  refine .inl ?_
  unfold ensureCapacity V8.ensureCapacity
  rw [count_onePerItem h]
  split <;> rfl

theorem Rel.advance (n : Nat) : Rel E b s (Source.advance n) (V8.advance n) := fun _ => .inl rfl

/-- The item here and the byte here: the same number. -/
theorem itemHere_eq (h : OnePerItem b s) (p : Nat) :
    itemHere s p = match V8.byteHere b p with
      | .ok (x, q) => .ok ((x.toNat : Int), q)
      | .error e => .error (.base e) := by
  unfold itemHere V8.byteHere
  rw [h, List.getElem?_map]
  cases b[p]? <;> rfl

theorem paddingLoop_eq : ∀ (b : Bytes) (p : Nat),
    readPaddingLoop (b.map fun x => (x.toNat : Int)) p = lift (V8.readPaddingLoop b p)
  | [], _ => rfl
  | x :: b, p => by
    have hz : ((x.toNat : Int) ≠ 0) ↔ x ≠ 0 := by
      refine not_congr ?_
      constructor
      · intro hx
        have : x.toNat = 0 := by omega
        exact UInt8.toNat_inj.1 this
      · rintro rfl
        rfl
    simp only [List.map_cons, readPaddingLoop, V8.readPaddingLoop, hz]
    split
    · rfl
    · exact paddingLoop_eq b (p + 1)

theorem Rel.padding (h : OnePerItem b s) : Rel E b s readPadding V8.readPadding := by
  intro p
  refine .inl ?_
  unfold readPadding V8.readPadding
  rw [h, ← List.map_drop]
  exact paddingLoop_eq _ _

theorem varintLoop_eq (m : Option Nat) : ∀ (b : Bytes) (o a p : Nat),
    readVarintLoop m (b.map fun x => (x.toNat : Int)) o a p = lift (V8.readVarintLoop m b o a p)
  | [], _, _, _ => rfl
  | x :: b, o, a, p => by
    have h7 : (((x.toNat : Int) % 128).toNat) = x.toNat % 128 := by omega
    simp only [List.map_cons, readVarintLoop, V8.readVarintLoop, h7]
    by_cases hx : x.toNat = x.toNat % 128
    · rw [if_pos hx, if_pos (by omega)]
      rfl
    · rw [if_neg hx, if_neg (by omega)]
      cases m with
      | none => exact varintLoop_eq none b _ _ _
      | some k =>
        dsimp only
        split
        · rfl
        · exact varintLoop_eq (some k) b _ _ _

theorem Rel.varint (h : OnePerItem b s) (m : Option Nat) : Rel E b s (readVarint m) (V8.readVarint m) := by
  intro p
  refine .inl ?_
  unfold readVarint V8.readVarint
  rw [h, ← List.map_drop]
  exact varintLoop_eq _ _ _ _ _

theorem tagOf_byte (x : UInt8) : tagOf (x.toNat : Int) = Tag.ofByte x := by
  unfold tagOf
  have := x.toNat_lt
  rw [if_pos (by omega)]
  simp

/-- A reader that goes on with the number of a byte. -/
theorem Rel.item (h : OnePerItem b s) {f : Int → Rx β} {g : UInt8 → Rd β}
    (hf : ∀ x : UInt8, Rel E b s (f (x.toNat : Int)) (g x)) : Rel E b s (itemHere >>= f) (byteHere >>= g) := by
  intro p
  show Rx.bind itemHere f s p = lift (Rd.bind byteHere g b p) ∨ (E = true ∧ Rx.bind itemHere f s p = .error .bufferError)
  unfold Rx.bind Rd.bind
  rw [itemHere_eq h]
  cases hr : V8.byteHere b p with
  | error e => exact .inl rfl
  | ok y => exact hf y.1 y.2

theorem Rel.skip (h : OnePerItem b s) (x : UInt8) {f : Int → Rx β} {g : UInt8 → Rd β}
    (hf : ∀ x : UInt8, Rel E b s (f (x.toNat : Int)) (g x)) :
    Rel E b s (skipPadding (x.toNat : Int) >>= f) (V8.skipPadding x >>= g) := by
  have hz : ((x.toNat : Int) = 0) ↔ x = Tag.kPadding.byte := by
    constructor
    · intro hx
      have : x.toNat = 0 := by omega
      exact UInt8.toNat_inj.1 this
    · rintro rfl
      rfl
  unfold skipPadding V8.skipPadding
  by_cases hx : x = Tag.kPadding.byte
  · rw [if_pos hx, if_pos (hz.2 hx)]
    have hl : Rel E b s (Bind.bind (m := Rx) (Source.advance 1) fun _ => readPadding >>= fun _ => itemHere >>= f)
        (Bind.bind (m := Rd) (V8.advance 1) fun _ => V8.readPadding >>= fun _ => byteHere >>= g) :=
      (Rel.advance 1).bind fun _ => (Rel.padding h).bind fun _ => Rel.item h hf
    intro p
    have := hl p
    revert this
    simp only [Bind.bind, Rx.bind, Rd.bind, Source.advance, V8.advance]
    cases readPadding s (p + 1) with
    | error e => 
      cases V8.readPadding b (p + 1) with
      | error e' => exact id
      | ok y => exact id
    | ok z =>
      cases V8.readPadding b (p + 1) with
      | error e' => exact id
      | ok y => exact id
  · rw [if_neg hx, if_neg fun hq => hx (hz.1 hq)]
    exact hf x

theorem Rel.tag (h : OnePerItem b s) (accept : Tag → Bool) (consume : Bool) :
    Rel E b s (readTag accept consume) (V8.readTag accept consume) := by
  unfold readTag V8.readTag
  refine (Rel.capacity h 1).bind fun _ => Rel.item h fun x => Rel.skip h x fun y => ?_
  rw [tagOf_byte]
  cases Tag.ofByte y with
  | none => exact Rel.throw
  | some t => exact Rel.ite ((Rel.advance _).bind fun _ => Rel.pure t) Rel.throw

theorem Rel.header (h : OnePerItem b s) : Rel E b s readHeader V8.readHeader := by
  unfold readHeader V8.readHeader V8.readThisTag
  exact (Rel.tag h _ _).bind fun _ => (Rel.varint h _).bind fun v => Rel.ite (Rel.fail _) (Rel.pure _)

theorem Rel.int32 (h : OnePerItem b s) : Rel E b s readInt32 V8.readInt32 := by
  have : V8.readInt32 = (V8.readVarint (some 32) >>= fun u =>
      if inInt32 (decodeZigzag u) then Pure.pure (decodeZigzag u) else throwD) := by
    funext d p
    simp only [V8.readInt32, V8.readZigzag, Bind.bind, Rd.bind]
    cases V8.readVarint (some 32) d p <;> rfl
  rw [this]
  unfold readInt32
  exact (Rel.varint h _).bind fun v => Rel.ite (Rel.pure _) Rel.throw

theorem Rel.uint32 (h : OnePerItem b s) : Rel E b s readUint32 V8.readUint32 := by
  unfold readUint32 V8.readUint32
  exact (Rel.varint h _).bind fun v => Rel.ite (Rel.pure _) Rel.throw

end

/-! ## Slices of byte items -/

theorem cells_of_byteItems : ∀ {l : List Bytes}, (∀ c ∈ l, c.length = 1) → l = l.flatten.map ([·])
  | [], _ => rfl
  | c :: l, h => by
    have hc := h c (by simp)
    have ih := cells_of_byteItems (l := l) fun d hd => h d (by simp [hd])
    match c, hc with
    | [x], _ => rw [List.flatten_cons, List.singleton_append, List.map_cons, ← ih]

theorem flatten_singles (b : Bytes) : (b.map ([·])).flatten = b := by
  induction b with
  | nil => rfl
  | cons x b ih => simp [ih]

theorem cells_eq {s : Src} (h : ByteItems s) : s.cells = (bytesOf s).map ([·]) := cells_of_byteItems h.2

theorem onePerItem_of_byteItems {s : Src} (h : ByteItems s) : OnePerItem (bytesOf s) s := by
  unfold OnePerItem Src.items
  rw [h.1]
  conv => lhs; rw [cells_eq h]
  rw [List.map_map]
  refine List.map_congr_left fun x _ => ?_
  simp [number, fromLE]

theorem slice_copy {s : Src} (h : ByteItems s) (p n : Nat) : (s.slice p n).copy = ((bytesOf s).drop p).take n := by
  unfold Src.slice Src.copy
  dsimp only
  conv => lhs; rw [cells_eq h]
  rw [← List.map_drop, ← List.map_take, flatten_singles]

section
variable {α β : Type} {E : Bool} {s : Src}

theorem bind_slice {x : Rx β} (n : Nat) {f : Src → Rx β} (hx : x = (readSlice n >>= f)) (p : Nat) :
    x s p = match ensureCapacity n s p with
      | .ok _ => f (s.slice p n) s (p + n)
      | .error e => .error e := by
  subst hx
  simp only [readSlice, Bind.bind, Rx.bind]
  unfold ensureCapacity
  by_cases hp : p + n > s.count
  · simp only [if_pos hp]
  · simp only [if_neg hp]

theorem Rel.copied (h : ByteItems s) (n : Nat) {f : Src → Rx β} {g : Bytes → Rd β}
    (hf : ∀ t p, t = s.slice p n → Rel E (bytesOf s) s (f t) (g t.copy)) :
    Rel E (bytesOf s) s (readSlice n >>= f) (V8.readBytes n >>= g) := by
  intro p
  rw [bind_slice n rfl]
  simp only [V8.readBytes, Bind.bind, Rd.bind, V8.takeHere]
  unfold ensureCapacity V8.ensureCapacity
  rw [count_onePerItem (onePerItem_of_byteItems h)]
  by_cases hp : p + n > (bytesOf s).length
  · rw [if_pos hp, if_pos hp]
    exact .inl rfl
  · rw [if_neg hp, if_neg hp]
    dsimp only
    have := hf _ p rfl (p + n)
    rwa [slice_copy h] at this

theorem Rel.memory (h : ByteItems s) (hE : E = true ∨ s.dense = true) (n : Nat) :
    Rel E (bytesOf s) s (readMemory n) (V8.readBytes n) := by
  have hr : V8.readBytes n = (V8.readBytes n >>= fun m => Pure.pure m) := by
    funext d p
    simp only [Bind.bind, Rd.bind]
    cases V8.readBytes n d p <;> rfl
  rw [hr]
  unfold readMemory
  refine Rel.copied h n fun t p ht => ?_
  unfold Src.memory
  by_cases hd : (t.dense || t.cells.length == 1) = true
  · rw [if_pos hd]
    exact Rel.pure _
  · rw [if_neg hd]
    rcases hE with hE | hE
    · exact fun _ => .inr ⟨hE, rfl⟩
    · subst ht
      simp [Src.slice, hE] at hd

theorem Rel.bigint (h : ByteItems s) : Rel E (bytesOf s) s readBigint V8.readBigint := by
  unfold readBigint V8.readBigint
  refine (Rel.varint (onePerItem_of_byteItems h) _).bind fun v => Rel.copied h _ fun t p _ => ?_
  exact Rel.ite (Rel.pure _) (Rel.pure _)

theorem Rel.buffer (h : ByteItems s) : Rel E (bytesOf s) s readBuffer bytesBuffer := by
  unfold readBuffer bytesBuffer
  have ho := onePerItem_of_byteItems h
  refine (Rel.uint32 ho).bind fun n => (Rel.capacity ho n).bind fun _ => ?_
  have hr : V8.readBytes n = (V8.readBytes n >>= fun m => Pure.pure m) := by
    funext d p
    simp only [Bind.bind, Rd.bind]
    cases V8.readBytes n d p <;> rfl
  rw [hr]
  exact Rel.copied h _ fun t p _ => Rel.pure _

theorem Rel.oneByte (h : ByteItems s) (hE : E = true ∨ s.dense = true) :
    Rel E (bytesOf s) s readStringOneByte V8.readStringOneByte := by
  unfold readStringOneByte V8.readStringOneByte
  have ho := onePerItem_of_byteItems h
  exact (Rel.varint ho _).bind fun n => (Rel.capacity ho n).bind fun _ => (Rel.memory h hE n).bind fun m => Rel.pure _

theorem Rel.twoByte (h : ByteItems s) (hE : E = true ∨ s.dense = true) :
    Rel E (bytesOf s) s readStringTwoByte V8.readStringTwoByte := by
  unfold readStringTwoByte V8.readStringTwoByte
  have ho := onePerItem_of_byteItems h
  refine (Rel.varint ho _).bind fun n => (Rel.memory h hE n).bind fun m => ?_
  cases utf16Decode m with
  | none => exact Rel.throw
  | some t => exact Rel.pure t

theorem Rel.utf8 (h : ByteItems s) (hE : E = true ∨ s.dense = true) :
    Rel E (bytesOf s) s readStringUtf8 V8.readStringUtf8 := by
  unfold readStringUtf8 V8.readStringUtf8
  have ho := onePerItem_of_byteItems h
  refine (Rel.varint ho _).bind fun n => (Rel.memory h hE n).bind fun m => ?_
  cases utf8Decode m with
  | none => exact Rel.throw
  | some t => exact Rel.pure t

theorem Rel.double (h : ByteItems s) (hE : E = true ∨ s.dense = true) :
    Rel E (bytesOf s) s readDouble V8.readDouble := by
  intro p
  have ho := onePerItem_of_byteItems h
  simp only [readDouble, V8.readDouble, V8.readBytes, Bind.bind, Rx.bind, Rd.bind, Source.ensureCapacity,
    V8.ensureCapacity, V8.takeHere, count_onePerItem ho]
  by_cases hp : p + 8 > (bytesOf s).length
  · simp only [if_pos hp]
    exact .inl rfl
  · simp only [if_neg hp]
    unfold Src.memory
    by_cases hd : (s.dense || s.cells.length == 1) = true
    · rw [if_pos hd]
      dsimp only
      have : ¬ (s.cells.flatten.length < p + 8) := by
        have : s.cells.flatten.length = (bytesOf s).length := rfl
        omega
      rw [if_neg this]
      exact .inl rfl
    · rw [if_neg hd]
      rcases hE with hE | hE
      · exact .inr ⟨hE, rfl⟩
      · simp [hE] at hd

theorem Rel.same {b : Bytes} {x : Rx α} {r : Rd α} (h : Rel false b s x r) (p : Nat) : x s p = lift (r b p) := by
  rcases h p with h | ⟨h, _⟩
  · exact h
  · cases h

theorem Rel.honest {x : Rx α} {r : Rd α} (h : Rel true (bytesOf s) s x r) : Honest s x r := fun p => by
  rcases h p with h | ⟨_, h⟩
  · exact .inl h
  · exact .inr h

end

/-! ## Signed items -/

theorem signed_small {s : Src} (hs : s.signed = true) (hw : Width 1 s) : ∀ v ∈ s.items, v < 128 := by
  intro v hv
  unfold Src.items at hv
  rw [hs] at hv
  obtain ⟨c, hc, rfl⟩ := List.mem_map.1 hv
  match c, hw c hc with
  | [x], _ =>
    have := x.toNat_lt
    simp only [number, fromLE, List.length_singleton]
    by_cases hx : 2 ^ (8 * 1) ≤ 2 * (x.toNat + 256 * 0)
    · simp only [hx, decide_true, Bool.and_self, if_true]
      omega
    · simp only [hx, decide_false, Bool.and_false, Bool.false_eq_true, if_false]
      omega

theorem number_signed (x : UInt8) :
    number true [x] = if 128 ≤ x.toNat then (x.toNat : Int) - 256 else x.toNat := by
  have := x.toNat_lt
  simp only [number, fromLE, List.length_singleton]
  by_cases hx : 128 ≤ x.toNat
  · have : 2 ^ (8 * 1) ≤ 2 * (x.toNat + 256 * 0) := by omega
    simp only [this, decide_true, Bool.and_self, if_true, hx]
    omega
  · have : ¬ (2 ^ (8 * 1) ≤ 2 * (x.toNat + 256 * 0)) := by omega
    simp only [this, decide_false, Bool.and_false, Bool.false_eq_true, if_false, hx]
    omega

/-- Varints of signed bytes: the continued ones are negative. -/
theorem varintLoop_signed (m : Option Nat) : ∀ (b : Bytes) (o a p : Nat),
    readVarintLoop m ((b.map ([·])).map (number true)) o a p = lift (V8.readVarintLoop m b o a p)
  | [], _, _, _ => rfl
  | x :: b, o, a, p => by
    have := x.toNat_lt
    have h7 : ((number true [x] % 128).toNat) = x.toNat % 128 := by
      rw [number_signed]
      split <;> omega
    have he : (number true [x] = ((x.toNat % 128 : Nat) : Int)) ↔ x.toNat = x.toNat % 128 := by
      rw [number_signed]
      split <;> omega
    simp only [List.map_cons, readVarintLoop, V8.readVarintLoop, h7]
    by_cases hx : x.toNat = x.toNat % 128
    · rw [if_pos hx, if_pos (he.2 hx)]
      rfl
    · rw [if_neg hx, if_neg fun h => hx (he.1 h)]
      cases m with
      | none => exact varintLoop_signed none b _ _ _
      | some k =>
        dsimp only
        split
        · rfl
        · exact varintLoop_signed (some k) b _ _ _

theorem varint_signed {s : Src} (hs : s.signed = true) (hw : Width 1 s) (m : Option Nat) (p : Nat) :
    readVarint m s p = lift (V8.readVarint m (bytesOf s) p) := by
  unfold readVarint V8.readVarint Src.items
  rw [hs]
  conv => lhs; rw [cells_of_byteItems hw]
  rw [← List.map_drop, ← List.map_drop]
  exact varintLoop_signed m _ _ _ _

/-- The item that `read_tag` ends on is an item of the data. -/
theorem readTag_item {s : Src} {accept : Tag → Bool} {consume : Bool} {p : Nat} {t : Tag} {q : Nat}
    (h : readTag accept consume s p = .ok (t, q)) : accept t = true ∧ ∃ v ∈ s.items, tagOf v = some t := by
  have key : ∀ v q', v ∈ s.items →
      (match tagOf v with
        | some t => if accept t then (do advance (if consume then 1 else 0); return t : Rx Tag) else throwX
        | none => throwX) s q' = .ok (t, q) → accept t = true ∧ ∃ v ∈ s.items, tagOf v = some t := by
    intro v q' hv h
    cases ht : tagOf v with
    | none => rw [ht] at h; cases h
    | some u =>
      rw [ht] at h
      dsimp only at h
      by_cases ha : accept u = true
      · rw [if_pos ha] at h
        have hu : u = t := by
          have : Except.ok (u, q' + (if consume then 1 else 0)) = Except.ok (ε := XErr) (t, q) := h
          injection this with this
          injection this
        subst hu
        exact ⟨ha, v, hv, ht⟩
      · rw [if_neg ha] at h
        cases h
  have hitem : ∀ p v q', itemHere s p = .ok (v, q') → v ∈ s.items := by
    intro p v q' hi
    unfold itemHere at hi
    cases hx : s.items[p]? with
    | none => rw [hx] at hi; cases hi
    | some w =>
      rw [hx] at hi
      injection hi with hi
      injection hi with hi _
      subst hi
      exact List.mem_of_getElem? hx
  unfold readTag at h
  simp only [Bind.bind, Rx.bind] at h
  cases he : ensureCapacity 1 s p with
  | error e => rw [he] at h; cases h
  | ok y =>
    rw [he] at h
    dsimp only at h
    cases hi : itemHere s y.2 with
    | error e => rw [hi] at h; cases h
    | ok z =>
      rw [hi] at h
      dsimp only at h
      cases hk : skipPadding z.1 s z.2 with
      | error e => rw [hk] at h; cases h
      | ok w =>
        rw [hk] at h
        dsimp only at h
        have hw : w.1 ∈ s.items := by
          unfold skipPadding at hk
          by_cases hz : z.1 = 0
          · rw [if_pos hz] at hk
            simp only [Bind.bind, Rx.bind, advance] at hk
            cases hp : readPadding s (z.2 + 1) with
            | error e => rw [hp] at hk; cases hk
            | ok u =>
              rw [hp] at hk
              exact hitem _ _ w.2 hk
          · rw [if_neg hz] at hk
            have : Except.ok (z.1, z.2) = Except.ok (ε := XErr) w := hk
            injection this with this
            rw [← this]
            exact hitem _ _ z.2 hi
        exact key w.1 w.2 hw h

theorem version_byte {v : Int} (h : tagOf v = some .kVersion) : v = 255 := by
  unfold tagOf at h
  split at h
  · rename_i hv
    have hall : ∀ x : UInt8, Tag.ofByte x = some .kVersion → x = 255 := by
      intro x hx
      have hfin : ∀ n : Fin 256, Tag.ofByte (UInt8.ofNat n.val) = some .kVersion → n.val = 255 := by decide +kernel
      have := hfin ⟨x.toNat, x.toNat_lt⟩ (by simpa using hx)
      exact UInt8.toNat_inj.1 this
    have := congrArg UInt8.toNat (hall _ h)
    rw [UInt8.toNat_ofNat'] at this
    have h255 : (255 : UInt8).toNat = 255 := rfl
    omega
  · cases h

theorem readHeader_version {s : Src} {p : Nat} {r : Nat × Nat} (h : readHeader s p = .ok r) :
    (255 : Int) ∈ s.items := by
  unfold readHeader at h
  simp only [Bind.bind, Rx.bind] at h
  cases ht : readTag (· == .kVersion) true s p with
  | error e => rw [ht] at h; cases h
  | ok y =>
    obtain ⟨ha, v, hv, htag⟩ := readTag_item (t := y.1) (q := y.2) ht
    have : y.1 = .kVersion := by simpa using ha
    rw [this] at htag
    rw [← version_byte htag]
    exact hv

/-! ## Wide items -/

theorem flatten_length_width {l : List Bytes} {w : Nat} (h : ∀ c ∈ l, c.length = w) : l.flatten.length = w * l.length := by
  induction l with
  | nil => simp
  | cons c l ih =>
    rw [List.flatten_cons, List.length_append, ih fun d hd => h d (by simp [hd]), h c (by simp), List.length_cons,
      Nat.mul_succ]
    omega

theorem latin1Decode_len (b : Bytes) : (latin1Decode b).length = b.length := by
  unfold latin1Decode
  simp

/-- What the slices of `n` items hold: `w * n` bytes. -/
theorem slice_length {s : Src} {w p n : Nat} (hw : Width w s) (hp : p + n ≤ s.count) :
    (s.slice p n).copy.length = w * n := by
  unfold Src.slice Src.copy
  dsimp only
  rw [flatten_length_width (w := w) fun c hc => hw c (List.mem_of_mem_drop (List.mem_of_mem_take hc))]
  congr 1
  rw [List.length_take, List.length_drop]
  unfold Src.count at hp
  omega

end V8.Source
