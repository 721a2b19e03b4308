import Verif.Proofs.DecodeMade
import Verif.Props.RoundTrip
import Verif.Props.Accept
import Verif.Proofs.DecodeRoot

/-!
# C51, C52: what loads returns is well formed, and can be written and read again
-/

namespace V8.Props
open V8 V8.Spec

/-! ## C51 -/

/-- C51: whatever the data, a value that `loads` returns contains only objects that exist, and each of them
is as its class promises. -/
theorem C51_well_formed {denv : DEnv} (hpy : FloatNames denv.py) {data : Bytes} {v : Val} {ds : DS}
    (h : loads denv data = .ok (v, ds)) :
    Known data.length ds.heap v ∧ ∀ (i : Id) n, ds.heap[i]? = some n → NodeMade denv.py data.length ds.heap n :=
  ⟨(loads_made hpy h).1, (loads_made hpy h).2.nodes⟩

theorem floatNames_example : FloatNames examplePy := by
  intro x _
  have h : normaliseKey (fun _ => []) (.str []) = .ok (.name []) := by decide +kernel
  exact ⟨h, by intro c hc; cases hc⟩

/-- A dense array [, 7] whose data also sets 5 and "x" as properties, and an array buffer with a view. -/
def wellFormedData : Bytes :=
  [0xff, 15, 0x41, 2, 0x2d, 0x49, 14, 0x22, 1, 120, 0x42, 2, 1, 2, 0x56, 0x42, 1, 1, 0, 0x49, 10, 0x54, 0x24, 2, 2]

example : result (loads exampleDec wellFormedData) = some (.obj 0,
    [.jsarr ⟨.dense ⟨[none, some (.int 7), none, none, none, some (.bool true)], 2⟩, [([120], .obj 2)]⟩,
     .abuf ⟨[1, 2], 2, false⟩, .view (.obj 1) ⟨.uint8, 1, some 1⟩], 25) := by decide +kernel

/-! ## C52 -/

/-- The objects that came out of `loads`, given to `dumps`. -/
def again (ds : DS) (denv : DEnv) (feats : Features) (hkey : Id → Option Nat) : EEnv := ⟨ds.heap, feats, denv.py, hkey⟩

/-- What Python's `==` and `hash` guarantee of objects that stand for each other: a buffer only for a buffer
with the same contents, the wrapper of a primitive only for another; both exist. -/
structure TwinsMatch (env : EEnv) : Prop where
  exist : ∀ i j, Interchangeable env i j → env.heap[i]?.isSome → env.heap[j]?.isSome
  buffers : ∀ i j, Interchangeable env i j → IsBuffer env.heap (.obj i) → env.heap[j]? = env.heap[i]?
  wrappers : ∀ i j p, Interchangeable env i j → env.heap[j]? = some (.primObj p) → ∃ q, env.heap[i]? = some (.primObj q)

/-- A date that came from a number of milliseconds has that number again (Python's `datetime` rounds, so
this is a condition on the dates). -/
def DatesExact (env : EEnv) : Prop :=
  ∀ (i : Id) d, env.heap[i]? = some (.date d) → ∀ ms, env.py.dateMs d = .ok ms → env.py.msDate ms = .ok d

/-- Resizable buffers are written as such. -/
def ResizableWritten (env : EEnv) : Prop :=
  ∀ (i : Id) b, env.heap[i]? = some (.abuf b) → b.resizable = true → env.feats.resizableArrayBuffers = true

theorem isBuffer_iff {h : Heap} {b : Val} (hb : isBuffer h b = true) : IsBuffer h b := by
  unfold isBuffer at hb
  unfold IsBuffer
  split at hb <;> try cases hb
  split at hb <;> simp_all

/-- C52, part: what `loads` returns satisfies all that the round trip asks of the data. -/
theorem C52_encodable {denv : DEnv} (hpy : FloatNames denv.py) {data : Bytes} {v : Val} {ds : DS}
    (h : loads denv data = .ok (v, ds)) {feats : Features} {hkey : Id → Option Nat}
    (ht : TwinsMatch (again ds denv feats hkey)) (hd : DatesExact (again ds denv feats hkey))
    (hr : ResizableWritten (again ds denv feats hkey)) : Encodable (again ds denv feats hkey) where
  buffers := ht.buffers
  nodes := by
    intro i n hi
    have hm := (C51_well_formed hpy h).2 i n hi
    have key : ∀ k, Known data.length ds.heap k → ¬ TooBig k → Spec.KeyOK (again ds denv feats hkey) k := by
      intro k hk hb
      refine ⟨hb, fun i j m hk' hij hj => ?_⟩
      subst hk'
      obtain ⟨n, hn, hp⟩ := hk
      obtain ⟨q, hq⟩ := ht.wrappers i j _ hij hj
      rw [show (again ds denv feats hkey).heap[i]? = some n from hn] at hq
      exact absurd (Option.some.inj hq) (hp q)
    have obj : ∀ o, ObjMade denv.py data.length ds.heap o → ObjOK (again ds denv feats hkey) o := fun o ho =>
      ⟨ho.inv, ho.len, fun e he => (ho.names e he).1, fun e he => (ho.values e he).2⟩
    cases n with
    | jsmap es => exact fun e he => key _ (hm.1 e he).1 (hm.1 e he).2.2
    | jsset ms => exact fun e he => key _ (hm.1 e he).1 (hm.1 e he).2
    | jsobj o => exact obj o hm
    | jsarr o => exact obj o hm
    | pylist els => exact hm.elim
    | date d => exact hd i d hi
    | primObj p =>
      cases p with
      | safeInt n => exact absurd rfl (hm n)
      | _ => trivial
    | regexp r =>
      obtain ⟨h1, _, h2, h3⟩ := hm
      show mkRegExp r.source r.flags = .ok r
      unfold mkRegExp
      rw [if_neg (fun hn => hn (regexp_flagMember h3)), if_neg (by simpa [flagUnicode, flagUnicodeSets] using h2), if_neg h1]
    | sharedBuf id => exact hm.2
    | transferBuf id => exact hm.2
    | view b w =>
      refine ⟨isBuffer_iff hm.1, fun mv hmv => ⟨hm.2 mv hmv, fun _ hres => Or.inl ?_⟩⟩
      have hb := hm.1
      cases b with
      | obj j =>
        cases hj : ds.heap[j]? with
        | none => rw [isBuffer, hj] at hb; cases hb
        | some m =>
          have hres : backingResizable ds.heap (.obj j) = true := hres
          rw [backingResizable, hj] at hres
          cases m with
          | abuf c => exact ⟨j, c, rfl, hj, hr j c hj hres⟩
          | rawBuf _ _ => rw [isBuffer, hj] at hb; cases hb
          | _ => cases hres
      | _ => cases hb
    | _ => trivial

/-- What `dumps` asks of the dates, and the feature that Float16Array needs. -/
structure HostReady (env : EEnv) : Prop where
  dates : ∀ (i : Id) d, env.heap[i]? = some (.date d) → ∃ ms, env.py.dateMs d = .ok ms
  float16 : ∀ (i : Id) b w, env.heap[i]? = some (.view b w) → w.tag = .float16 → env.feats.float16Array = true

/-- Two values that mention one object. -/
theorem known_twin {denv : DEnv} {ds : DS} {feats : Features} {hkey : Id → Option Nat} {m : Nat}
    (ht : TwinsMatch (again ds denv feats hkey)) {a b : Val} (h : OneObject (again ds denv feats hkey) a b)
    (ha : Known m ds.heap a) : Known m ds.heap b := by
  rcases h with rfl | ⟨i, j, rfl, rfl, h⟩
  · exact ha
  · obtain ⟨n, hn, hp⟩ := ha
    obtain ⟨k, hk⟩ := Option.isSome_iff_exists.1 (ht.exist i j h (by rw [show (again ds denv feats hkey).heap[i]? = some n from hn]; rfl))
    refine ⟨k, hk, fun p hkp => ?_⟩
    subst hkp
    obtain ⟨q, hq⟩ := ht.wrappers i j p h hk
    exact hp q (Option.some.inj (hn.symm.trans hq))

/-- What a decoded object contains. -/
theorem known_members {denv : DEnv} (hpy : FloatNames denv.py) {data : Bytes} {v : Val} {ds : DS}
    (h : loads denv data = .ok (v, ds)) {i : Id} {n : Node} {c : Val} (hi : ds.heap[i]? = some n) (hc : c ∈ members n) :
    Known data.length ds.heap c := by
  have hm := (C51_well_formed hpy h).2 i n hi
  cases n with
  | jsmap es =>
    obtain ⟨e, he, hc⟩ := List.mem_flatMap.1 hc
    simp only [List.mem_cons, List.not_mem_nil, or_false] at hc
    rcases hc with rfl | rfl
    · exact (hm.1 e he).1
    · exact (hm.1 e he).2.1
  | jsset ms => exact (hm.1 c hc).1
  | jsobj o =>
    obtain ⟨e, he, rfl⟩ := List.mem_map.1 hc
    exact (hm.values e he).1
  | jsarr o =>
    obtain ⟨e, he, rfl⟩ := List.mem_map.1 hc
    exact (hm.values e he).1
  | pylist els => exact hm.elim
  | error name msg stack cause =>
    simp only [members] at hc
    split at hc
    · cases hc
    · rw [List.mem_singleton.1 hc]; exact hm.1
  | view b w => rw [List.mem_singleton.1 hc]; exact known_buffer hm.1
  | _ => cases hc

/-- C52: `dumps` accepts what `loads` returned (unless the data has a gigabyte, so that a BigInt may be too
long by one bit). -/
theorem C52_can_be_written {denv : DEnv} (hpy : FloatNames denv.py) {data : Bytes} {v : Val} {ds : DS}
    (h : loads denv data = .ok (v, ds)) (hl : data.length < 2 ^ 30 - 1) {feats : Features} {hkey : Id → Option Nat}
    (ht : TwinsMatch (again ds denv feats hkey)) (hd : HostReady (again ds denv feats hkey))
    (hf : feats.circularErrorCause = true) : ∃ bytes, dumps (again ds denv feats hkey) v = .ok bytes := by
  obtain ⟨hv, hn⟩ := C51_well_formed hpy h
  have wt : WellTyped (again ds denv feats hkey) := by
    refine ⟨fun i b w hi => isBuffer_iff (hn i _ hi).1, fun i j hij hb => ?_, fun i o hi => ?_⟩
    · have e := ht.buffers i j hij hb
      unfold IsBuffer at hb ⊢
      simp only [e]
      exact hb
    · rcases hi with hi | hi <;> exact (hn i _ hi).inv
  have sz : ArraysSized (again ds denv feats hkey) := by
    intro i o hi
    rcases hi with hi | hi <;> exact (hn i _ hi).len
  have bits : ∀ n : Int, n.natAbs < 2 ^ 32 ∨ n.natAbs < 2 ^ (8 * data.length) → n.natAbs < 2 ^ mostBits := by
    intro n hn
    rcases hn with hn | hn
    · exact lt_of_lt_of_le hn (Nat.pow_le_pow_right (by decide) (by unfold mostBits; omega))
    · exact lt_of_lt_of_le hn (Nat.pow_le_pow_right (by decide) (by unfold mostBits; omega))
  have wr : ∀ a, Known data.length ds.heap a → Writable (again ds denv feats hkey) a := by
    intro a ha
    cases a with
    | int n => exact bits n ha
    | str s => exact ha
    | bytes b => exact ha.elim
    | obj i =>
      obtain ⟨n, hi, hp⟩ := ha
      refine ⟨n, hi, ?_⟩
      have hm := hn i n hi
      cases n with
      | jsobj o => exact fun e he => (hm.names e he).2
      | jsarr o => exact fun e he => (hm.names e he).2
      | date x => exact hd.dates i x hi
      | primObj p => exact absurd rfl (hp p)
      | regexp r => exact hm.2.1
      | error name msg stack cause => exact hm.2.2.2
      | abuf b =>
        refine ⟨?_, fun _ _ => hm.2.1⟩
        show (b.data.take b.max).length < 2 ^ 32
        have := hm.2.1
        rw [List.length_take]
        omega
      | rawBuf _ b => exact hm.elim
      | sharedBuf id => exact hm.1
      | transferBuf id => exact hm.1
      | sharedRef id => exact hm
      | view b w => exact hd.float16 i b w hi
      | other => exact hm.elim
      | _ => trivial
    | _ => trivial
  have mem := fun i n c => known_members hpy h (i := i) (n := n) (c := c)
  have all : ∀ a u, Reaches (again ds denv feats hkey) a u → Known data.length ds.heap a → Known data.length ds.heap u := by
    intro a u hr
    induction hr with
    | here h1 => exact known_twin ht h1
    | @inside a c z i n h1 hi hc _ ih => exact fun _ => ih (mem i n c hi hc)
  rcases C53_accepts wt sz (fun u hu => wr u (all v u hu hv)) with hb | ⟨_, hb, _⟩
  · exact hb
  · rw [show (again ds denv feats hkey).feats.circularErrorCause = feats.circularErrorCause from rfl, hf] at hb; cases hb

/-- A BigInt of `n` bytes 0xff. -/
def longBigint (n : Nat) : Bytes := [0xff, 15, 0x5a] ++ (writeVarint (n * 2) ++ List.replicate n 0xff)

theorem longBigint_value (n : Nat) : fromLE (List.replicate n 0xff) + 1 = 256 ^ n := by
  induction n with
  | zero => rfl
  | succ n ih =>
    have e : fromLE (List.replicate (n + 1) 0xff) = 255 + 256 * fromLE (List.replicate n 0xff) := rfl
    rw [e, Nat.pow_succ]
    omega

theorem longBigint_loads (denv : DEnv) {n : Nat} (hn : n < 2 ^ 30) :
    ∃ ds, loads denv (longBigint n) = .ok (.int (fromLE (List.replicate n 0xff)), ds) := by
  obtain ⟨h1, h2⟩ := prefix_append (d := [0xff, 15, 0x5a]) (suf := writeVarint (n * 2) ++ List.replicate n 0xff)
    (ver := 15) (p := 2) (t := .kBigInt) (p1 := 3) (by rfl) (by rfl)
  have hr : Reads readBigint (writeVarint (n * 2) ++ List.replicate n 0xff) (fromLE (List.replicate n 0xff)) := by
    refine Reads.bind (readVarint_reads _) ?_
    have e : n * 2 / 2 % 2 ^ 30 = n := by omega
    simp only [e]
    refine Reads.bind0 (readBytes_reads' List.length_replicate) ?_
    rw [if_neg (by omega)]
    exact Reads.pure _
  have h3 := hr.at (d := longBigint n) (p := 3) (suf := []) (by simp [longBigint]) (by simp [longBigint])
  refine ⟨{ DS.start 2 15 with pos := 3 + (writeVarint (n * 2) ++ List.replicate n 0xff).length, calls := 1 },
    loads_intro (env := denv) h1 h2 ?_⟩
  rw [decodeTag_succ]
  show (RM.lift readBigint >>= fun n => (Pure.pure (.int n) : RM Val)) (longBigint n) { DS.start 2 15 with pos := 3, calls := 1 } = _
  rw [RM.bind_ok (RM.lift_ok (s := { DS.start 2 15 with pos := 3, calls := 1 }) h3)]
  rfl

theorem dumps_int_small {env : EEnv} {n : Int} {bytes : Bytes} (h : dumps env (.int n) = .ok bytes) : n.natAbs < 2 ^ mostBits := by
  unfold dumps at h
  cases hs : dumpsState env (.int n) with
  | error e => rw [hs] at h; cases h
  | ok ws =>
    rw [dumps_int] at hs
    exact serializeInt_accepts hs

/-- A BigInt of one bit more than can be written. -/
theorem longBigint_refused {env : EEnv} {m n : Nat} (hm : m = mostBits) (hb : m + 1 = 8 * n) {bytes : Bytes}
    (hd : dumps env (.int (fromLE (List.replicate n 0xff))) = .ok bytes) : False := by
  have h1 := dumps_int_small hd
  rw [← hm, Int.natAbs_natCast] at h1
  have h2 := longBigint_value n
  have h3 : 2 * 2 ^ m = 256 ^ n := by
    rw [show (256 : Nat) = 2 ^ 8 from rfl, ← Nat.pow_mul, ← hb, Nat.pow_succ, Nat.mul_comm]
  have h4 : 0 < 2 ^ m := Nat.pow_pos (by decide)
  rw [← h3] at h2
  generalize 2 ^ m = B at *
  omega

/-- C52: the one bit.  A BigInt whose 2^30 - 1 bytes are full is read, and cannot be written. -/
theorem C52_longest_bigint_refused (denv : DEnv) (feats : Features) : ∃ data v ds, loads denv data = .ok (v, ds) ∧
    ∀ hkey bytes, dumps (again ds denv feats hkey) v ≠ .ok bytes := by
  obtain ⟨n, hn, hb⟩ : ∃ n, n < 2 ^ 30 ∧ mostBits + 1 = 8 * n := ⟨2 ^ 30 - 1, by decide, by decide⟩
  obtain ⟨ds, h⟩ := longBigint_loads denv hn
  exact ⟨_, _, ds, h, fun hkey bytes hd => longBigint_refused rfl hb hd⟩

/-- C52: what `loads` returned and `dumps` wrote again comes back once more with the same contents, the
same sharing and the same cycles.  Missing: the objects that the two sides do not number alike. -/
theorem C52_comes_back_partial {denv : DEnv} (hpy : FloatNames denv.py) {data : Bytes} {v : Val} {ds : DS}
    (h : loads denv data = .ok (v, ds)) {feats : Features} {hkey : Id → Option Nat}
    (ht : TwinsMatch (again ds denv feats hkey)) (hd : DatesExact (again ds denv feats hkey))
    (hr : ResizableWritten (again ds denv feats hkey)) (hn : NumbersAgree (again ds denv feats hkey) v) :
    ComesBack (again ds denv feats hkey) denv v :=
  C11_round_trip_partial (C52_encodable hpy h ht hd hr) rfl v hn

/-- The array of C51 is written again and comes back. -/
example : ∃ v ds, loads exampleDec wellFormedData = .ok (v, ds) ∧
    ∃ bytes, dumps (again ds exampleDec ⟨true, true, true, true⟩ (fun _ => none)) v = .ok bytes ∧
      ∃ z P w ds', loads exampleDec bytes = .ok (w, ds') ∧
        SameGraph (again ds exampleDec ⟨true, true, true, true⟩ (fun _ => none)) z P v w ds'.heap := by
  have hr : result (loads exampleDec wellFormedData) = some (.obj 0,
      [.jsarr ⟨.dense ⟨[none, some (.int 7), none, none, none, some (.bool true)], 2⟩, [([120], .obj 2)]⟩,
       .abuf ⟨[1, 2], 2, false⟩, .view (.obj 1) ⟨.uint8, 1, some 1⟩], 25) := by decide +kernel
  cases hl : loads exampleDec wellFormedData with
  | error e => rw [hl] at hr; cases hr
  | ok r =>
    obtain ⟨v, ds⟩ := r
    rw [hl] at hr
    simp only [result, Option.some.injEq, Prod.mk.injEq] at hr
    obtain ⟨rfl, hh, _⟩ := hr
    have twins : TwinsMatch (again ds exampleDec ⟨true, true, true, true⟩ (fun _ => none)) := by
      refine ⟨?_, ?_, ?_⟩
      · intro i j hij h; rw [← exampleEnc_same hij]; exact h
      · intro i j hij _; rw [exampleEnc_same hij]
      · intro i j p hij h; rw [exampleEnc_same hij]; exact ⟨p, h⟩
    have dates : ∀ (i : Id) d, ds.heap[i]? ≠ some (.date d) := by
      intro i d hi
      rw [hh] at hi
      rcases i with _ | _ | _ | i <;> cases hi
    obtain ⟨bytes, hd⟩ := C52_can_be_written floatNames_example hl (by decide) twins
      ⟨fun i d hi => absurd hi (dates i d), fun _ _ _ _ _ => rfl⟩ rfl
    · refine ⟨_, _, rfl, bytes, hd, C52_comes_back_partial floatNames_example hl twins ?_ ?_ (Or.inl ?_) bytes hd⟩
      · exact fun i d hi => absurd hi (dates i d)
      · intro i b hi hb; rfl
      · intro i n hi
        simp only [again, hh] at hi
        rcases i with _ | _ | _ | i <;> cases hi <;> trivial

end V8.Props
