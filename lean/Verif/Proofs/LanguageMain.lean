import Verif.Proofs.LanguageBuf
import Verif.Proofs.LanguageProps
import Verif.Proofs.LanguageError

/-! All values, and messages. -/

namespace V8.Lang

open V8.Spec V8.Spec.Lang

variable {d : Bytes} {ver : Nat} {rec : Tag → RM Val} {R : Tag → Step Val}

theorem tagReader_spec (env : DEnv) (hrec : ∀ t, RMSpec d ver (rec t) (R t)) (hfwd : Fwd rec)
    (hmap : ∀ w i v w' r, ¬ R .kEndJSMap w i v w' r) (hset : ∀ w i v w' r, ¬ R .kEndJSSet w i v w' r)
    (hbool : ∀ t w i b w' r, keyTag t → ¬ R t w i (.bool b) w' r) (t : Tag) :
    RMSpec d ver (tagReader env rec t unhandledTag) (Body env ver R t) := by
  cases t
  case kTheHole => exact const_spec _
  case kUndefined => exact const_spec _
  case kNull => exact const_spec _
  case kTrue => exact const_spec _
  case kFalse => exact const_spec _
  case kInt32 => exact plain_spec signed32_spec _
  case kUint32 => exact plain_spec number32_spec _
  case kDouble => exact plain_spec double_spec _
  case kBigInt => exact plain_spec big_spec _
  case kUtf8String => exact plain_spec utf8_spec _
  case kOneByteString => exact plain_spec latin1_spec _
  case kTwoByteString => exact plain_spec utf16_spec _
  case kTrueObject => exact wrapped_spec (t := .kTrueObject) (arg_const _)
  case kFalseObject => exact wrapped_spec (t := .kFalseObject) (arg_const _)
  case kNumberObject => exact wrapped_spec (t := .kNumberObject) (arg_spec double_spec _)
  case kBigIntObject => exact wrapped_spec (t := .kBigIntObject) (arg_spec big_spec _)
  case kStringObject => exact wrapped_spec (t := .kStringObject) (arg_spec utf8_spec _)
  case kDate => exact date_spec env
  case kRegExp => exact regexp_spec hrec
  case kError => exact error_spec hrec
  case kBeginJSMap => exact map_spec hrec hfwd hmap
  case kBeginJSSet => exact set_spec hrec hfwd hset
  case kBeginJSObject => exact object_spec env hrec hfwd hbool
  case kBeginDenseJSArray => exact dense_spec env hrec hfwd hbool
  case kBeginSparseJSArray => exact sparse_spec env hrec hfwd hbool
  case kObjectReference => exact reference_spec
  case kArrayBuffer => exact fixed_spec
  case kResizableArrayBuffer => exact resizable_spec
  case kSharedArrayBuffer => exact elsewhere_spec .sharedBuf (fun k => .inl ⟨k, rfl⟩) rfl
  case kArrayBufferTransfer => exact elsewhere_spec .transferBuf (fun k => .inr ⟨k, rfl⟩) rfl
  case kSharedObject => exact sharedObject_spec
  case kHostObject =>
    show RMSpec d ver (decodeHostObject env) (if env.nodejs then NodeBody else fun _ _ _ _ _ => False)
    unfold decodeHostObject
    split
    · exact node_spec
    · exact RMSpec.fail _
  all_goals exact RMSpec.fail _

/-- The bodies of keys are no booleans. -/
theorem body_notBool (env : DEnv) (R : Tag → Step Val) (t : Tag) (w : World) (i : Bytes) (b : Bool) (w' : World)
    (r : Bytes) (ht : keyTag t) : ¬ Body env ver R t w i (.bool b) w' r := by
  unfold keyTag textTag at ht
  simp only [List.mem_cons, List.not_mem_nil, or_false] at ht
  rcases ht with (rfl | rfl | rfl | rfl) | (rfl | rfl | rfl | rfl)
  case inl.inr.inr.inr => rintro ⟨p, ⟨a, -, rfl⟩, h, -⟩; cases h
  case inr.inr.inr.inr => rintro ⟨p, ⟨a, -, rfl⟩, h, -⟩; cases h
  all_goals rintro ⟨a, -, h, -⟩; cases h

theorem decodeTag_spec (env : DEnv) (n : Nat) (t : Tag) : RMSpec d ver (decodeTag env n t) (BodyAt env ver n t) := by
  induction n generalizing t with
  | zero => exact RMSpec.fail _
  | succ n ih =>
    rw [decodeTag_succ]
    have h1 : ∀ w i v w' r, ¬ BodyAt env ver n .kEndJSMap w i v w' r := by cases n <;> exact fun _ _ _ _ _ h => h
    have h2 : ∀ w i v w' r, ¬ BodyAt env ver n .kEndJSSet w i v w' r := by cases n <;> exact fun _ _ _ _ _ h => h
    have h3 : ∀ t w i b w' r, keyTag t → ¬ BodyAt env ver n t w i (.bool b) w' r := by
      cases n with
      | zero => exact fun _ _ _ _ _ _ _ h => h
      | succ n => exact fun t w i b w' r ht => body_notBool env _ t w i b w' r ht
    refine (RMSpec.tick.bind fun _ => tagReader_spec env ih (Fwd.decodeTag env n) h1 h2 h3 t).congr fun w i v w' r => ?_
    constructor
    · rintro ⟨_, w1, m, ⟨rfl, rfl⟩, h⟩; exact h
    · intro h; exact ⟨(), w, i, ⟨rfl, rfl⟩, h⟩

/-! ## Enough fuel -/

/-- The left computation ends as the right one, or for lack of fuel. -/
def Sub {α : Type} (x y : RM α) : Prop := ∀ d s, x d s = y d s ∨ x d s = .error .fuel

theorem sub_closed : RelClosed @Sub where
  pure _ _ _ := .inl rfl
  bind := by
    intro α β x y f g hx hf d s
    rcases hx d s with h | h
    · show RM.bind x f d s = RM.bind y g d s ∨ RM.bind x f d s = _
      unfold RM.bind
      rw [← h]
      cases x d s with
      | error e => exact .inl rfl
      | ok r => exact hf r.1 d r.2
    · exact .inr (RM.bind_error h)
  fail _ _ _ := .inl rfl
  fuelLeft _ _ _ := .inr rfl
  leaf _ _ _ := .inl rfl
  alloc _ _ _ := .inl rfl
  tick _ _ := .inl rfl
  setNode _ _ _ _ := .inl rfl
  recordD _ _ _ := .inl rfl
  replaceD _ _ _ _ := .inl rfl
  lookupD _ _ _ := .inl rfl
  getVersion _ _ := .inl rfl
  heap h d s := h s.heap s.heap (fun _ => ⟨rfl, rfl, rfl⟩) d s
  loop h d s := h _ _ (Nat.le_refl _) d s

theorem next_sub (env : DEnv) {n m : Nat} (h : n ≤ m) : Sub (decodeNext (decodeTag env n)) (decodeNext (decodeTag env m)) :=
  sub_closed.decodeNext fun t => sub_closed.decodeTag env n m h t

theorem header_spec : RdSpec readHeader (fun i n r => ∃ m, TagAt i .kVersion m ∧ Number m n r ∧ 13 ≤ n ∧ n ≤ 15) := by
  unfold readHeader
  have hif : ∀ version : Nat, RdSpec (if version > kLatestVersion || version < 13 then Rd.fail (throwFmt version)
      else Pure.pure version) (fun i n r => n = version ∧ r = i ∧ 13 ≤ version ∧ version ≤ 15) := by
    intro version
    by_cases h : 13 ≤ version ∧ version ≤ 15
    · rw [if_neg (by unfold kLatestVersion; simp; omega)]
      exact (RdSpec.pure version).congr fun i n r => by simp [h]
    · rw [if_pos (by unfold kLatestVersion; simp; omega)]
      exact (RdSpec.fail _).congr fun i n r => by simp [h]
  refine ((tag_spec _).bind fun t => number_spec.bind fun n => hif n).congr fun i n r => ?_
  constructor
  · rintro ⟨t, m1, ⟨h1, h2⟩, n', m2, h3, rfl, rfl, h4, h5⟩
    have : t = .kVersion := by simpa using h2
    subst this
    exact ⟨m1, h1, h3, h4, h5⟩
  · rintro ⟨m1, h1, h3, h4, h5⟩
    exact ⟨.kVersion, m1, ⟨h1, by simp⟩, n, r, h3, rfl, rfl, h4, h5⟩

theorem start_at {d : Bytes} {p version : Nat} (hp : p ≤ d.length) : At d version (DS.start p version) .nothing (d.drop p) :=
  ⟨hp, rfl, rfl, rfl, rfl⟩

theorem loads_iff (env : DEnv) (data : Bytes) (v : Val) (w : World) :
    (∃ s, loads env data = .ok (v, s) ∧ s.heap = w.heap ∧ s.log.slots = w.numbered.map .obj) ↔ Message env data v w := by
  have hl : ∀ version p, readHeader data 0 = .ok (version, p) →
      loads env data = decodeNext (decodeTag env (data.length - p + 1)) data (DS.start p version) := by
    intro version p h
    unfold loads
    rw [h]
  constructor
  · rintro ⟨s, h1, h2, h3⟩
    cases hh : readHeader data 0 with
    | error e => unfold loads at h1; rw [hh] at h1; cases h1
    | ok x =>
      obtain ⟨version, p⟩ := x
      rw [hl version p hh] at h1
      obtain ⟨hp, m1, g1, g2, g3, g4⟩ := header_spec.sound _ _ _ _ (Nat.zero_le _) hh
      obtain ⟨w', r, k1, k2⟩ := (next_spec (decodeTag_spec env _)).sound _ _ _ _ _ (start_at hp) h1
      refine ⟨version, m1, _, r, data.length - p + 1, g1, g2, g3, g4, ?_⟩
      obtain ⟨n', h'⟩ := w'
      obtain ⟨n, h⟩ := w
      have e1 : h' = h := k1.heap.symm.trans h2
      have e2 : n' = n := by
        have := k1.slots.symm.trans h3
        simp only at this
        exact (List.map_inj_right (fun a b hab => by cases hab; rfl)).1 this
      subst e1 e2
      exact k2
  · rintro ⟨version, m1, m2, rest, depth, g1, g2, g3, g4, g5⟩
    obtain ⟨p, h1, h2, rfl⟩ := header_spec.complete data 0 version m2 (Nat.zero_le _) ⟨m1, g1, g2, g3, g4⟩
    obtain ⟨s, k1, k2⟩ := (next_spec (decodeTag_spec env depth)).complete _ _ _ _ _ _ (start_at h2) g5
    refine ⟨s, ?_, k2.heap, k2.slots⟩
    have hload := hl version p h1
    rcases Nat.le_total depth (data.length - p + 1) with hle | hle
    · rcases next_sub env hle data (DS.start p version) with hs | hs
      · rw [hload, ← hs, k1]
      · rw [k1] at hs; cases hs
    · rcases next_sub env hle data (DS.start p version) with hs | hs
      · rw [hload, hs, k1]
      · rw [← hload] at hs
        exact ((loads_spec env data).2 _ hs).elim

theorem loads_world {env : DEnv} {data : Bytes} {v : Val} {s : DS} (h1 : loads env data = .ok (v, s)) :
    ∃ w : World, s.heap = w.heap ∧ s.log.slots = w.numbered.map .obj := by
  unfold loads at h1
  cases hh : readHeader data 0 with
  | error e => rw [hh] at h1; cases h1
  | ok x =>
    obtain ⟨version, p⟩ := x
    rw [hh] at h1
    obtain ⟨hp, -⟩ := header_spec.sound _ _ _ _ (Nat.zero_le _) hh
    obtain ⟨w', r, k1, -⟩ := (next_spec (decodeTag_spec env _)).sound _ _ _ _ _ (start_at hp) h1
    exact ⟨w', k1.heap, k1.slots⟩

end V8.Lang
