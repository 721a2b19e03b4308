import Verif.Spec.Language
import Verif.Proofs.DecodeLocal
import Verif.Props.Text

/-! Readers and the forms they read: what is read is a form, and every form is read. -/

namespace V8.Lang

open V8.Spec.Lang

variable {α β : Type}

/-! ## Readers without objects -/

/-- The reader accepts exactly the form. -/
structure RdSpec (x : Rd α) (F : Form α) : Prop where
  sound : ∀ d p a p', p ≤ d.length → x d p = .ok (a, p') → p' ≤ d.length ∧ F (d.drop p) a (d.drop p')
  complete : ∀ d p a r, p ≤ d.length → F (d.drop p) a r → ∃ p', x d p = .ok (a, p') ∧ p' ≤ d.length ∧ r = d.drop p'

theorem RdSpec.congr {x : Rd α} {F G : Form α} (h : RdSpec x F) (hFG : ∀ i a r, F i a r ↔ G i a r) : RdSpec x G :=
  ⟨fun d p a p' hp hx => ⟨(h.sound d p a p' hp hx).1, (hFG _ _ _).1 (h.sound d p a p' hp hx).2⟩,
   fun d p a r hp hG => h.complete d p a r hp ((hFG _ _ _).2 hG)⟩

theorem RdSpec.bind {x : Rd α} {f : α → Rd β} {F : Form α} {G : α → Form β} (hx : RdSpec x F)
    (hf : ∀ a, RdSpec (f a) (G a)) : RdSpec (x >>= f) (fun i b r => ∃ a m, F i a m ∧ G a m b r) := by
  constructor
  · intro d p b p' hp h
    obtain ⟨a, p1, h1, h2⟩ := Rd.bind_eq_ok h
    obtain ⟨g1, g2⟩ := hx.sound d p a p1 hp h1
    obtain ⟨k1, k2⟩ := (hf a).sound d p1 b p' g1 h2
    exact ⟨k1, a, _, g2, k2⟩
  · rintro d p b r hp ⟨a, m, h1, h2⟩
    obtain ⟨p1, g1, g2, rfl⟩ := hx.complete d p a m hp h1
    obtain ⟨p2, k1, k2, k3⟩ := (hf a).complete d p1 b r g2 h2
    exact ⟨p2, by rw [Rd.bind_ok g1]; exact k1, k2, k3⟩

theorem RdSpec.pure (a : α) : RdSpec (Pure.pure a : Rd α) (fun i b r => b = a ∧ r = i) := by
  constructor
  · intro d p b p' hp h
    simp only [Rd.pure_apply, Except.ok.injEq, Prod.mk.injEq] at h
    obtain ⟨rfl, rfl⟩ := h
    exact ⟨hp, rfl, rfl⟩
  · rintro d p b r hp ⟨rfl, rfl⟩
    exact ⟨p, rfl, hp, rfl⟩

theorem RdSpec.fail (e : DErr) : RdSpec (Rd.fail e : Rd α) (fun _ _ _ => False) :=
  ⟨fun d p a p' hp h => by simp [Rd.fail] at h, fun d p a r hp h => h.elim⟩

theorem RdSpec.ite {c : Prop} [Decidable c] {x y : Rd α} {F G : Form α} (hx : RdSpec x F) (hy : RdSpec y G) :
    RdSpec (if c then x else y) (fun i a r => if c then F i a r else G i a r) := by
  split <;> assumption

/-- The loop of `read_varint` reads the groups of seven bits. -/
theorem varintLoop_iff (mb : Option Nat) (bs : Bytes) (off acc p n p' : Nat) :
    readVarintLoop mb bs off acc p = .ok (n, p') ↔
      ∃ vs k r, Varint vs k ∧ bs = vs ++ r ∧ n = acc + k * 2 ^ off ∧ p' = p + vs.length ∧
        ∀ m, mb = some m → vs.length = 1 ∨ off + 7 * (vs.length - 1) < m := by
  induction bs generalizing off acc p with
  | nil =>
    simp only [readVarintLoop, reduceCtorEq, false_iff]
    rintro ⟨vs, k, r, hv, h, _⟩
    cases hv <;> simp at h
  | cons b bs ih =>
    have hb := b.toNat_lt
    simp only [readVarintLoop]
    by_cases hlow : b.toNat < 128
    · rw [if_pos (by omega)]
      simp only [Except.ok.injEq, Prod.mk.injEq]
      constructor
      · rintro ⟨rfl, rfl⟩
        refine ⟨[b], b.toNat, bs, .last b hlow, rfl, ?_, rfl, fun m _ => .inl rfl⟩
        rw [Nat.mod_eq_of_lt hlow]
      · rintro ⟨vs, k, r, hv, h, rfl, rfl, _⟩
        cases hv with
        | last b' h' =>
          simp only [List.cons_append, List.nil_append, List.cons.injEq] at h
          obtain ⟨rfl, rfl⟩ := h
          exact ⟨by rw [Nat.mod_eq_of_lt hlow], rfl⟩
        | more b' vs' n' h' hn =>
          simp only [List.cons_append, List.cons.injEq] at h
          obtain ⟨rfl, rfl⟩ := h
          omega
    · rw [if_neg (by omega)]
      have e1 : b.toNat % 128 = b.toNat - 128 := by omega
      have pos_len : ∀ {vs : Bytes} {k : Nat}, Varint vs k → 1 ≤ vs.length := by
        intro vs k hv; cases hv <;> simp
      have key : ∀ k : Nat, acc + b.toNat % 128 * 2 ^ off + k * 2 ^ (off + 7)
          = acc + (b.toNat - 128 + 128 * k) * 2 ^ off := by
        intro k
        have e7 : (2 : Nat) ^ (off + 7) = 128 * 2 ^ off := by rw [Nat.pow_add]; omega
        rw [e1, e7, Nat.add_mul, Nat.add_assoc]
        congr 2
        rw [← Nat.mul_assoc, Nat.mul_comm k 128]
      have go : (readVarintLoop mb bs (off + 7) (acc + b.toNat % 128 * 2 ^ off) (p + 1) = .ok (n, p') ∧
            ∀ m, mb = some m → off + 7 < m) ↔
          ∃ vs k r, Varint vs k ∧ b :: bs = vs ++ r ∧ n = acc + k * 2 ^ off ∧ p' = p + vs.length ∧
            ∀ m, mb = some m → vs.length = 1 ∨ off + 7 * (vs.length - 1) < m := by
        rw [ih]
        constructor
        · rintro ⟨⟨vs, k, r, hv, rfl, rfl, rfl, hm⟩, hlt⟩
          refine ⟨b :: vs, _, r, .more b vs k (by omega) hv, rfl, key k, by simp only [List.length_cons]; omega,
            fun m h => ?_⟩
          have := pos_len hv
          have h1 := hlt m h
          rcases hm m h with h2 | h2
          · right; simp only [List.length_cons]; omega
          · right; simp only [List.length_cons]; omega
        · rintro ⟨vs, k, r, hv, h, rfl, rfl, hm⟩
          cases hv with
          | last b' h' =>
            simp only [List.cons_append, List.nil_append, List.cons.injEq] at h
            obtain ⟨rfl, rfl⟩ := h
            omega
          | more b' vs' n' h' hn =>
            simp only [List.cons_append, List.cons.injEq] at h
            obtain ⟨rfl, rfl⟩ := h
            have := pos_len hn
            simp only [List.length_cons] at hm ⊢
            refine ⟨⟨vs', n', r, hn, rfl, (key n').symm, by omega, fun m h => ?_⟩, fun m h => ?_⟩
            · rcases hm m h with h2 | h2 <;> omega
            · rcases hm m h with h2 | h2 <;> omega
      rw [← go]
      cases mb with
      | none => simp
      | some m =>
        simp only [Option.some.injEq, forall_eq']
        split
        · rename_i hge
          simp only [reduceCtorEq, false_iff, not_and]
          omega
        · rename_i hge
          simp only [iff_self_and]
          omega

theorem drop_split {d vs r : Bytes} {p : Nat} (hp : p ≤ d.length) (h : d.drop p = vs ++ r) :
    p + vs.length ≤ d.length ∧ d.drop (p + vs.length) = r := by
  have hl := congrArg List.length h
  simp only [List.length_drop, List.length_append] at hl
  refine ⟨by omega, ?_⟩
  rw [← List.drop_drop, h, List.drop_left]

theorem varint_spec (mb : Option Nat) : RdSpec (readVarint mb) (fun i n r => ∃ bs, Varint bs n ∧ i = bs ++ r ∧
    ∀ m, mb = some m → bs.length = 1 ∨ 7 * (bs.length - 1) < m) := by
  constructor
  · intro d p n p' hp h
    unfold readVarint at h
    obtain ⟨vs, k, r, hv, hd, rfl, rfl, hm⟩ := (varintLoop_iff ..).1 h
    obtain ⟨h1, h2⟩ := drop_split hp hd
    refine ⟨h1, vs, ?_, by rw [h2]; exact hd, fun m h => by simpa using hm m h⟩
    simpa using hv
  · rintro d p n r hp ⟨vs, hv, hd, hm⟩
    obtain ⟨h1, h2⟩ := drop_split hp hd
    refine ⟨p + vs.length, ?_, h1, h2.symm⟩
    unfold readVarint
    exact (varintLoop_iff ..).2 ⟨vs, n, r, hv, hd, by simp, rfl, fun m h => by simpa using hm m h⟩

theorem number_spec : RdSpec (readVarint none) Number :=
  (varint_spec none).congr fun i n r => by simp [Number]

theorem inUint32_iff (n : Nat) : inUint32 n = true ↔ n < 2 ^ 32 := by
  unfold inUint32
  simp only [Bool.and_eq_true, decide_eq_true_eq]
  omega

set_option linter.constructorNameAsVariable false in
theorem number32_spec : RdSpec readUint32 Number32 := by
  unfold readUint32
  refine ((varint_spec (some 32)).bind fun v => RdSpec.ite (RdSpec.pure v) (RdSpec.fail .decode)).congr fun i n r => ?_
  unfold Number32
  constructor
  · rintro ⟨v, m, ⟨bs, h1, h2, h3⟩, h4⟩
    split at h4
    · rename_i hu
      obtain ⟨rfl, rfl⟩ := h4
      refine ⟨bs, h1, ?_, ?_, h2⟩
      · rcases h3 32 rfl with h | h <;> omega
      · exact (inUint32_iff n).1 hu
    · exact h4.elim
  · rintro ⟨bs, h1, h2, h3, h4⟩
    refine ⟨n, r, ⟨bs, h1, h4, fun m hm => ?_⟩, ?_⟩
    · cases hm; omega
    · rw [if_pos ((inUint32_iff n).2 h3)]
      exact ⟨rfl, rfl⟩

theorem signed32_spec : RdSpec readInt32 Signed32 := by
  unfold readInt32 readZigzag
  refine (((varint_spec (some 32)).bind fun u => RdSpec.pure (decodeZigzag u)).bind
    fun v => RdSpec.ite (RdSpec.pure v) (RdSpec.fail .decode)).congr fun i n r => ?_
  unfold Signed32 Number32
  constructor
  · rintro ⟨v, m, ⟨u, m', ⟨bs, h1, h2, h3⟩, rfl, rfl⟩, h4⟩
    split at h4
    · rename_i hu
      obtain ⟨rfl, rfl⟩ := h4
      unfold inInt32 decodeZigzag at hu
      unfold decodeZigzag
      refine ⟨u, ⟨bs, h1, ?_, ?_, h2⟩, ?_⟩
      · rcases h3 32 rfl with h | h <;> omega
      · simp at hu
        split at hu <;> omega
      · split <;> omega
    · exact h4.elim
  · rintro ⟨u, ⟨bs, h1, h2, h3, h4⟩, h5⟩
    have hz : decodeZigzag u = n := by
      unfold decodeZigzag
      split <;> omega
    refine ⟨n, r, ⟨u, r, ⟨bs, h1, h4, fun m hm => ?_⟩, hz.symm, rfl⟩, ?_⟩
    · cases hm; omega
    · rw [if_pos (by unfold inInt32; simp; omega)]
      exact ⟨rfl, rfl⟩

theorem ensure_spec (k : Nat) : RdSpec (ensureCapacity k) (fun i _ r => k ≤ i.length ∧ r = i) := by
  constructor
  · intro d p a p' hp h
    unfold ensureCapacity at h
    split at h
    · simp at h
    · simp only [Except.ok.injEq, Prod.mk.injEq, true_and] at h
      subst h
      exact ⟨hp, by rw [List.length_drop]; omega, rfl⟩
  · rintro d p a r hp ⟨h1, rfl⟩
    rw [List.length_drop] at h1
    refine ⟨p, ?_, hp, rfl⟩
    unfold ensureCapacity
    rw [if_neg (by omega)]

theorem data_spec (k : Nat) : RdSpec (readBytes k) (Data k) := by
  constructor
  · intro d p a p' hp h
    unfold readBytes at h
    obtain ⟨_, p1, h1, h2⟩ := Rd.bind_eq_ok h
    obtain ⟨g1, g2, g3⟩ := (ensure_spec k).sound d p _ p1 hp h1
    have : p1 = p := by
      unfold ensureCapacity at h1
      split at h1 <;> simp at h1
      exact h1.symm
    subst this
    simp only [takeHere, Except.ok.injEq, Prod.mk.injEq] at h2
    obtain ⟨rfl, rfl⟩ := h2
    rw [List.length_drop] at g2
    refine ⟨by omega, by rw [List.length_take, List.length_drop]; omega, ?_⟩
    rw [← List.drop_drop, List.take_append_drop]
  · rintro d p a r hp ⟨rfl, h⟩
    obtain ⟨h1, h2⟩ := drop_split hp h
    refine ⟨p + a.length, ?_, h1, h2.symm⟩
    unfold readBytes
    rw [Rd.bind_ok (show ensureCapacity a.length d p = .ok ((), p) by
      unfold ensureCapacity; rw [if_neg (by omega)])]
    simp only [takeHere, h, List.take_left']

theorem double_spec : RdSpec readDouble Double := by
  unfold readDouble
  refine ((ensure_spec 8).bind fun _ => (data_spec 8).bind fun bs => RdSpec.pure _).congr fun i x r => ?_
  unfold Double
  constructor
  · rintro ⟨_, m, ⟨h1, rfl⟩, bs, m', h2, rfl, rfl⟩
    exact ⟨bs, h2, rfl⟩
  · rintro ⟨bs, h, rfl⟩
    refine ⟨(), i, ⟨?_, rfl⟩, bs, r, h, rfl, rfl⟩
    obtain ⟨h1, h2⟩ := h
    subst h2
    simp only [List.length_append]
    omega

theorem big_spec : RdSpec readBigint Big := by
  unfold readBigint
  refine (number_spec.bind fun f => (data_spec _).bind fun bs => RdSpec.ite (RdSpec.pure _) (RdSpec.pure _)).congr
    fun i n r => ?_
  unfold Big
  constructor
  · rintro ⟨f, m, h1, bs, m', h2, h3⟩
    split at h3 <;> obtain ⟨rfl, rfl⟩ := h3 <;> refine ⟨f, m, bs, h1, h2, ?_⟩
    · rw [if_pos (by omega)]
    · rw [if_neg (by omega)]
  · rintro ⟨f, m, bs, h1, h2, rfl⟩
    refine ⟨f, m, h1, bs, r, h2, ?_⟩
    by_cases hf : f % 2 = 1
    · rw [if_pos (by omega), if_pos hf]; exact ⟨rfl, rfl⟩
    · rw [if_neg (by omega), if_neg hf]; exact ⟨rfl, rfl⟩

theorem latin1_spec : RdSpec readStringOneByte Latin1 := by
  unfold readStringOneByte
  refine (number_spec.bind fun n => (ensure_spec n).bind fun _ => (data_spec n).bind fun bs => RdSpec.pure _).congr
    fun i s r => ?_
  unfold Latin1 Counted
  constructor
  · rintro ⟨n, m, h1, _, m', ⟨h2, rfl⟩, bs, m'', h3, rfl, rfl⟩
    obtain ⟨rfl, h4⟩ := h3
    exact ⟨bs, ⟨_, h1, rfl, h4⟩, latin1Encode_decode bs⟩
  · rintro ⟨bs, ⟨m, h1, h2⟩, h3⟩
    refine ⟨bs.length, m, h1, (), m, ⟨?_, rfl⟩, bs, r, h2, (latin1Decode_encode h3).symm, rfl⟩
    rw [h2.2, List.length_append]
    omega

theorem utf8_spec : RdSpec readStringUtf8 Utf8 := by
  unfold readStringUtf8
  have hm : ∀ bs : Bytes, RdSpec (match utf8Decode bs with
      | some s => (Pure.pure s : Rd Str)
      | none => throwD) (fun i s r => utf8Decode bs = some s ∧ r = i) := by
    intro bs
    cases h : utf8Decode bs with
    | none => exact (RdSpec.fail _).congr fun i s r => by simp
    | some s => exact (RdSpec.pure s).congr fun i s' r => by simp [eq_comm]
  refine (number_spec.bind fun n => (data_spec n).bind hm).congr fun i s r => ?_
  unfold Utf8 Counted
  constructor
  · rintro ⟨n, m, h1, bs, m', ⟨rfl, h2⟩, h3, rfl⟩
    exact ⟨bs, ⟨m, h1, rfl, h2⟩, utf8Encode_decode h3⟩
  · rintro ⟨bs, ⟨m, h1, h2⟩, h3⟩
    exact ⟨bs.length, m, h1, bs, r, h2, utf8Decode_encode h3, rfl⟩

theorem utf16_spec : RdSpec readStringTwoByte Utf16 := by
  unfold readStringTwoByte
  have hm : ∀ bs : Bytes, RdSpec (match utf16Decode bs with
      | some s => (Pure.pure s : Rd Str)
      | none => throwD) (fun i s r => utf16Decode bs = some s ∧ r = i) := by
    intro bs
    cases h : utf16Decode bs with
    | none => exact (RdSpec.fail _).congr fun i s r => by simp
    | some s => exact (RdSpec.pure s).congr fun i s' r => by simp [eq_comm]
  refine (number_spec.bind fun n => (data_spec n).bind hm).congr fun i s r => ?_
  unfold Utf16 Counted
  constructor
  · rintro ⟨n, m, h1, bs, m', ⟨rfl, h2⟩, h3, rfl⟩
    exact ⟨bs, ⟨m, h1, rfl, h2⟩, utf16Encode_decode h3⟩
  · rintro ⟨bs, ⟨m, h1, h2⟩, h3⟩
    exact ⟨bs.length, m, h1, bs, r, h2, utf16Decode_encode h3, rfl⟩

theorem tag_spec (accept : Tag → Bool) : RdSpec (readTag accept) (fun i t r => TagAt i t r ∧ accept t = true) := by
  constructor
  · intro d p t p' hp h
    obtain ⟨k, r, h1, h2, h3, rfl, h5⟩ := V8.Props.readTag_ok h
    refine ⟨h5, ⟨k, Tag.byte_ne_zero h3, ?_⟩, h2⟩
    have h1' : d.drop p = (List.replicate k 0 ++ [t.byte]) ++ r := by rw [h1]; simp
    have := (drop_split hp h1').2
    rw [List.length_append, List.length_replicate, List.length_singleton, ← Nat.add_assoc] at this
    rw [this]
    exact h1
  · rintro d p t r hp ⟨⟨k, h1, h2⟩, h3⟩
    have h2' : d.drop p = (List.replicate k 0 ++ [t.byte]) ++ r := by rw [h2]; simp
    obtain ⟨g1, g2⟩ := drop_split hp h2'
    have hr := (readTag_reads_padded h3 (fun hc => by subst hc; exact h1 rfl) k).at (d := d) (p := p) (suf := r) hp
    exact ⟨_, hr h2', g1, g2.symm⟩

theorem anyTag_spec : RdSpec readAnyTag TagAt := (tag_spec _).congr fun i t r => by simp

end V8.Lang
