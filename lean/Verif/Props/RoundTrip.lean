import Verif.Proofs.EncodeOnce
import Verif.Proofs.EncodeZero
import Verif.Props.Config
import Verif.Spec.Examples

/-!
# C06, C11, C12, C20, C26, C44-C46: what dumps writes, loads reads back
-/

namespace V8.Props
open V8 V8.Spec

theorem dumps_state {env : EEnv} {v : Val} {bytes : Bytes} (h : dumps env v = .ok bytes) :
    ∃ ws, dumpsState env v = .ok ws ∧ ws.data = bytes := by
  unfold dumps at h
  cases hs : dumpsState env v with
  | error e => rw [hs] at h; cases h
  | ok ws => rw [hs] at h; exact ⟨ws, rfl, by cases h; rfl⟩

/-! ## C11 -/

/-- `loads(dumps(v))` gives an equal graph of objects. -/
def ComesBack (env : EEnv) (denv : DEnv) (v : Val) : Prop :=
  ∀ bytes, dumps env v = .ok bytes →
    ∃ z P w ds, loads denv bytes = .ok (w, ds) ∧ SameGraph env z P v w ds.heap

/-- Whatever `dumps` writes, `loads` reads back, with the same contents and the same sharing and
cycles: data of any kinds of objects in which none occurs twice, and data without RegExps, Errors without
cause, shared and transferred buffers, with any sharing and cycles.  Missing from the full property: both
together (which the next theorem covers in part, and for which the property fails in general), and the
objects `Encodable` excludes. -/
theorem C11_round_trip_partial {env : EEnv} (he : Encodable env) {denv : DEnv} (hpy : denv.py = env.py) (v : Val)
    (hn : NumbersAgree env v) : ComesBack env denv v := by
  intro bytes h
  obtain ⟨ws, hw, rfl⟩ := dumps_state h
  obtain ⟨z, P, w, ds, h1, h2, h3, _⟩ :=
    dumps_sameGraph he hpy hw (NumbersAgree.refs (Encodable.wellTyped he) hn hw) (suf := []) (by simp [NV])
  rw [List.append_nil] at h1
  exact ⟨z, P, w, ds, h1, h3⟩

/-- With every kind of object: the same holds of each message in which no object reference was
written after the numbering of the two sides diverged (`badRef`). -/
theorem C11_round_trip_any_object_partial {env : EEnv} (he : Encodable env) {denv : DEnv}
    (hpy : denv.py = env.py) {v : Val} {ws : WS} (h : dumpsState env v = .ok ws) (hb : ws.badRef = false) :
    ∃ z P w ds, loads denv ws.data = .ok (w, ds) ∧ SameGraph env z P v w ds.heap := by
  obtain ⟨z, P, w, ds, h1, h2, h3, h5, h6⟩ := dumps_sameGraph he hpy h hb (suf := []) (by simp [NV])
  rw [List.append_nil] at h1
  exact ⟨z, P, w, ds, h1, h3⟩

/-- Doubles come back bit for bit: every one that is not zero, and the zeros as well if all of them in
the data have the same sign. -/
theorem C11_doubles {env : EEnv} {z : F64} {P : Val → Val → Prop} {v w : Val} {h' : Heap} (hg : SameGraph env z P v w h')
    {x : F64} {y : Val} (hx : FloatIn env P v x) (hy : SameVal env z P (.float x) y)
    (hz : fval x = .fin 0 → ∀ x', FloatIn env P v x' → fval x' = .fin 0 → x' = x) : y = .float x := by
  have hy : y = .float (if fval x = .fin 0 then z else x) := hy
  by_cases h : fval x = .fin 0
  · obtain ⟨h1, h2⟩ := hg.zeros x hx h
    rw [hy, if_pos h, hz h z h2 h1]
  · rw [hy, if_neg h]

/-- A list that contains itself and, twice, a map that leads back to the list and to a view. -/
def exampleGraph : Heap :=
  [.pylist [.obj 0, .obj 1, .obj 1, .hole, .int (2 ^ 40), .str [97, 8364]],
   .jsmap [(.int 1, .obj 0), (.str [107], .obj 2)],
   .view (.obj 3) ⟨.uint8, 1, some 2⟩,
   .abuf ⟨[1, 2, 3, 4], 4, false⟩]

theorem exampleEnc_same {h : Heap} {i j : Id} (hij : Interchangeable (exampleEnc h) i j) : i = j := by
  rcases hij with h | ⟨c, h, _⟩
  · exact h
  · cases h

theorem exampleGraph_ok : Encodable (exampleEnc exampleGraph) where
  nodes := by
    intro i n hi
    simp only [exampleEnc, exampleGraph] at hi
    rcases i with _ | _ | _ | _ | i
    · cases hi; simp [NodeOK]
    · cases hi
      intro e he
      simp only [List.mem_cons, List.not_mem_nil, or_false] at he
      rcases he with rfl | rfl
      · exact ⟨by decide +kernel, by simp⟩
      · exact ⟨by decide +kernel, by simp⟩
    · cases hi
      refine ⟨trivial, fun mv hmv => ?_⟩
      cases hmv
      exact ⟨by decide +kernel, by simp⟩
    · cases hi; trivial
    · cases hi
  buffers := fun i j hij _ => by rw [exampleEnc_same hij]

theorem exampleGraph_alike : NumberedAlike (exampleEnc exampleGraph) := by
  intro i n hi
  simp only [exampleEnc, exampleGraph] at hi
  rcases i with _ | _ | _ | _ | i <;> cases hi <;> trivial

example : ∃ bytes, dumps (exampleEnc exampleGraph) (.obj 0) = .ok bytes ∧
    ∃ z P w ds, loads exampleDec bytes = .ok (w, ds) ∧ SameGraph (exampleEnc exampleGraph) z P (.obj 0) w ds.heap := by
  have h : (dumps (exampleEnc exampleGraph) (.obj 0)).toOption.isSome = true := by decide +kernel
  cases hd : dumps (exampleEnc exampleGraph) (.obj 0) with
  | error e => rw [hd] at h; cases h
  | ok b => exact ⟨b, rfl, C11_round_trip_partial exampleGraph_ok rfl _ (Or.inl exampleGraph_alike) b hd⟩

/-- A list of a RegExp twice, a shared buffer, an Error without cause and a set of a map and `bytes`: each numbered
object once. -/
def exampleTree : Heap :=
  [.pylist [.obj 1, .obj 2, .obj 1, .obj 3, .obj 4], .regexp ⟨[97], 0⟩, .sharedBuf 3, .error [] none none .null,
   .jsset [.obj 5, .bytes [1, 2]], .jsmap [(.int 1, .int 2)]]

theorem exampleTree_ok : Encodable (exampleEnc exampleTree) where
  nodes := by
    intro i n hi
    simp only [exampleEnc, exampleTree] at hi
    rcases i with _ | _ | _ | _ | _ | _ | i
    · cases hi; simp [NodeOK]
    · cases hi; show mkRegExp _ _ = _; decide +kernel
    · cases hi; show (3 : Int) < 2 ^ 32; decide
    · cases hi; trivial
    · cases hi
      intro e he
      simp only [List.mem_cons, List.not_mem_nil, or_false] at he
      rcases he with rfl | rfl
      · refine ⟨by decide +kernel, ?_⟩
        rintro i j n hi hij hj
        cases hi
        rw [← exampleEnc_same hij] at hj
        cases hj
      · exact ⟨by decide +kernel, by simp⟩
    · cases hi
      intro e he
      simp only [List.mem_cons, List.not_mem_nil, or_false] at he
      subst he
      exact ⟨by decide +kernel, by simp⟩
    · cases hi
  buffers := fun i j hij _ => by rw [exampleEnc_same hij]

theorem exampleTree_once : NumbersAgree (exampleEnc exampleTree) (.obj 0) := by
  refine Or.inr ⟨fun i j h => exampleEnc_same h, fun x hx => ?_⟩
  have e : (Val.obj 0 :: (exampleEnc exampleTree).heap.flatMap members) =
      [.obj 0, .obj 1, .obj 2, .obj 1, .obj 3, .obj 4, .obj 5, .bytes [1, 2], .int 1, .int 2] := by decide +kernel
  rw [e]
  by_cases h1 : x = .obj 1
  · subst h1; exact absurd trivial hx
  · have : ([Val.obj 0, .obj 1, .obj 2, .obj 1, .obj 3, .obj 4, .obj 5, .bytes [1, 2], .int 1, .int 2] : List Val).count x
        = ([Val.obj 0, .obj 2, .obj 3, .obj 4, .obj 5, .bytes [1, 2], .int 1, .int 2] : List Val).count x := by
      simp only [List.count_cons]
      rw [if_neg (c := (Val.obj 1 == x) = true) (by simpa using Ne.symm h1)]
      omega
    rw [this]
    exact List.nodup_iff_count_le_one.mp (by decide) x

example : ∃ bytes, dumps (exampleEnc exampleTree) (.obj 0) = .ok bytes ∧
    ∃ z P w ds, loads exampleDec bytes = .ok (w, ds) ∧ SameGraph (exampleEnc exampleTree) z P (.obj 0) w ds.heap := by
  have h : (dumps (exampleEnc exampleTree) (.obj 0)).toOption.isSome = true := by decide +kernel
  cases hd : dumps (exampleEnc exampleTree) (.obj 0) with
  | error e => rw [hd] at h; cases h
  | ok b => exact ⟨b, rfl, C11_round_trip_partial exampleTree_ok rfl _ exampleTree_once b hd⟩

/-- The value, the objects and the position after reading back what is written for `v`. -/
def readBack (h : Heap) (v : Val) : Option (Val × Heap × Nat) :=
  match dumps (exampleEnc h) v with
  | .ok b => result (loads exampleDec b)
  | .error _ => none

example : (readBack [.pylist [.float 0x8000000000000000, .float 0x7FF8000000000001, .float 0x8000000000000000]] (.obj 0)).map (·.2.1)
    = some [.jsarr ⟨.dense ⟨[some (.float 0x8000000000000000), some (.float 0x7FF8000000000001),
        some (.float 0x8000000000000000)], 3⟩, []⟩] := by decide +kernel

theorem readBack_comesBack {h h' : Heap} {v w : Val} {p : Nat} (hr : readBack h v = some (w, h', p))
    (hc : ComesBack (exampleEnc h) exampleDec v) : ∃ z P, SameGraph (exampleEnc h) z P v w h' := by
  unfold readBack at hr
  cases hd : dumps (exampleEnc h) v with
  | error e => rw [hd] at hr; cases hr
  | ok b =>
    rw [hd] at hr
    obtain ⟨s, h1, h2, h3⟩ := result_ok hr
    obtain ⟨z, P, w', ds, h4, h5⟩ := hc b hd
    rw [h1] at h4
    cases h4
    exact ⟨z, P, by rw [← h2]; exact h5⟩

/-- A list of `n`, of an object, and of that object again. -/
def listOf (n : Node) : Heap := [.pylist [.obj 1, .obj 2, .obj 2], n, .jsobj JSObj.empty]

theorem listOf_ok {n : Node} (hn : NodeOK (exampleEnc (listOf n)) n) : Encodable (exampleEnc (listOf n)) where
  nodes := by
    intro i m hi
    simp only [exampleEnc, listOf] at hi
    rcases i with _ | _ | _ | i
    · cases hi; simp [NodeOK]
    · cases hi; exact hn
    · cases hi
      refine ⟨JSObj.empty_inv, by decide +kernel, by simp [JSObj.empty], ?_⟩
      rw [JSObj.items_eq JSObj.empty_inv]
      simp [JSObj.empty, Arr.abs, itemsOf]
    · cases hi
  buffers := fun i j hij _ => by rw [exampleEnc_same hij]

/-- Read back, the third element is the first one instead of the second. -/
theorem listOf_astray {n m : Node} {p : Nat}
    (hr : readBack (listOf n) (.obj 0) = some (.obj 0,
      [.jsarr ⟨.dense ⟨[some (.obj 1), some (.obj 2), some (.obj 1)], 3⟩, []⟩, m, .jsobj JSObj.empty], p)) :
    ¬ ComesBack (exampleEnc (listOf n)) exampleDec (.obj 0) := by
  intro hc
  obtain ⟨z, P, hg⟩ := readBack_comesBack hr hc
  obtain ⟨j, hj, hP⟩ := hg.root
  cases exampleEnc_same hj
  obtain ⟨n', h1, h2⟩ := hg.objects _ _ hP
  cases h1
  obtain ⟨j', n'', h3, h4, h5⟩ := h2
  cases h3
  cases h4
  have h6 := h5.2.1
  simp only [Arr.toList, Dense.toList, List.map, elemVal] at h6
  cases h6 with | cons ha h6 => cases h6 with | cons hb h6 => cases h6 with | cons hd h6 =>
    obtain ⟨j, hj, ha⟩ := ha
    cases exampleEnc_same hj
    obtain ⟨j, hj, hd⟩ := hd
    cases exampleEnc_same hj
    exact absurd (hg.distinct _ _ _ ha hd) (by decide)

/-- A RegExp before a shared object: `loads(dumps([/a/, o, o]))` is `[/a/, o, /a/]`. -/
theorem C11_fails_after_regexp : ∃ env : EEnv, Encodable env ∧ ¬ ComesBack env exampleDec (.obj 0) :=
  ⟨exampleEnc (listOf (.regexp ⟨[97], 0⟩)), listOf_ok (by show mkRegExp _ _ = _; decide +kernel),
   listOf_astray (m := .regexp ⟨[97], 0⟩) (p := 17) (by decide +kernel)⟩

/-- An Error without cause before a shared object: `loads(dumps([e, o, o]))` is `[e, o, e]`. -/
theorem C11_fails_after_error : ∃ env : EEnv, Encodable env ∧ ¬ ComesBack env exampleDec (.obj 0) :=
  ⟨exampleEnc (listOf (.error [] none none .null)), listOf_ok trivial,
   listOf_astray (m := .error [69, 114, 114, 111, 114] (some []) none .null) (p := 14) (by decide +kernel)⟩

/-- An Error without cause that occurs twice comes back as two objects. -/
theorem C11_error_duplicated :
    readBack [.pylist [.obj 1, .obj 1], .error [] none none .null] (.obj 0) = some (.obj 0,
      [.jsarr ⟨.dense ⟨[some (.obj 1), some (.obj 2)], 2⟩, []⟩,
       .error [69, 114, 114, 111, 114] (some []) none .null,
       .error [69, 114, 114, 111, 114] (some []) none .null], 11) := by decide +kernel

/-- What is written for `v` cannot be read. -/
def Unreadable (env : EEnv) (v : Val) : Prop :=
  ∃ bytes, dumps env v = .ok bytes ∧ ∃ e, loads exampleDec bytes = .error e

theorem unreadable {h : Heap} {v : Val} (h1 : (dumps (exampleEnc h) v).toOption.isSome = true) (h2 : readBack h v = none) :
    Unreadable (exampleEnc h) v := by
  unfold readBack at h2
  cases hd : dumps (exampleEnc h) v with
  | error e => rw [hd] at h1; cases h1
  | ok b =>
    rw [hd] at h2
    refine ⟨b, hd, ?_⟩
    simp only at h2
    cases hl : loads exampleDec b with
    | error e => exact ⟨e, rfl⟩
    | ok p => rw [hl] at h2; cases h2

/-- A JSArray with these elements. -/
def arrayOf (l : List (Option Val)) : JSObj Val := ⟨.dense ⟨l, countUsed l⟩, []⟩

theorem arrayOf_ok (env : EEnv) {l : List (Option Val)} (hl : l.length ≤ 2 ^ 32 - 1) (hv : some .hole ∉ l) :
    ObjOK env (arrayOf l) := by
  have hi : (arrayOf l).Inv := ⟨rfl, by simp [arrayOf, Dict.keys]⟩
  refine ⟨hi, hl, by simp [arrayOf], ?_⟩
  intro e he
  rw [JSObj.items_eq hi] at he
  simp only [arrayOf, List.map_nil, List.append_nil, List.mem_map] at he
  obtain ⟨⟨k, v⟩, h1, rfl⟩ := he
  rw [mem_itemsOf] at h1
  rintro h2
  simp only at h2
  subst h2
  cases hk : l[k]? with
  | none => simp only [Arr.abs, hk] at h1; cases h1
  | some a =>
    simp only [Arr.abs, hk, Option.join_some] at h1
    subst h1
    exact hv (List.mem_of_getElem? hk)

/-- A shared buffer before a shared object: what is written cannot be read. -/
theorem C11_fails_after_shared_buffer : ∃ env : EEnv, Encodable env ∧ ¬ ComesBack env exampleDec (.obj 0) := by
  refine ⟨exampleEnc (listOf (.sharedBuf 3)), listOf_ok (by show (3 : Int) < 2 ^ 32; decide), fun hc => ?_⟩
  obtain ⟨b, hd, e, he⟩ := unreadable (h := listOf (.sharedBuf 3)) (v := .obj 0) (by decide +kernel) (by decide +kernel)
  obtain ⟨z, P, w, ds, h1, _⟩ := hc b hd
  rw [he] at h1
  cases h1

/-! ## C06 -/

theorem dumps_int {env : EEnv} {n : Int} : dumpsState env (.int n) = serializeInt n WS.headed := by
  unfold dumpsState dumpsWith encodeFuel
  show encodeObject env (env.heap.length + 2 + 1) (.int n) WS.headed = _
  rw [encodeObject_succ]
  rfl

/-- C06: every int that `dumps` accepts comes back as a number equal to it: as that int if it has at most 32
bits or is not a safe integer, and otherwise as the double whose value (a multiple of 2^-1074) is that
int. -/
theorem C06_int_round_trip (env : EEnv) (denv : DEnv) (n : Int) (bytes : Bytes)
    (h : dumps env (.int n) = .ok bytes) :
    ∃ w ds, loads denv bytes = .ok (w, ds) ∧
      if (-2 ^ 31 ≤ n ∧ n < 2 ^ 32) ∨ 2 ^ 53 ≤ n.natAbs then w = .int n
      else ∃ x, w = .float x ∧ fval x = .fin (n * 2 ^ 1074) := by
  obtain ⟨ws, hw, rfl⟩ := dumps_state h
  rw [dumps_int] at hw
  obtain ⟨t, rest, w, h1, h2, h3, h4⟩ := serializeInt_back (denv := denv) (F := 0) hw rfl
  have hb : Fine 0 ws := by rw [h2]; exact ⟨rfl, fun u hu => by simp [WS.headed, WS.new, Dict.get] at hu⟩
  obtain ⟨P, w, ds, g1, _, g3, _⟩ := root_loads (env := env) (v := .int n) (obl_scalar h1 h2 h4 (fun P _ _ => h3 env 0 P)) hb
    (suf := []) (by simp [NV])
  rw [List.append_nil] at g1
  refine ⟨w, ds, g1, ?_⟩
  rcases g3 with ⟨k, g⟩ | ⟨k, g⟩
  · rw [if_pos (show _ ∨ _ from k)]; exact g
  · rw [if_neg (show ¬ (_ ∨ _) from k)]; exact g

/-- C06: every int of at most 2^32 bits is accepted. -/
theorem C06_accepted (env : EEnv) (n : Int) (bits : Nat) (hb : bits ≤ 2 ^ 32) (hn : n.natAbs < 2 ^ bits) :
    ∃ bytes, dumps env (.int n) = .ok bytes := by
  have hbl : bitLength n.natAbs ≤ 2 ^ 32 := by
    unfold bitLength
    split
    · omega
    · have := (Nat.log2_lt (by omega)).2 hn
      omega
  have hok : ∃ bs, writeBigint n = .ok bs := by
    unfold writeBigint
    have : ¬ bitLength ((bitLength n.natAbs + 8) / 8) > 30 := by
      generalize bitLength n.natAbs = b at hbl
      unfold bitLength
      split
      · omega
      · have := (Nat.log2_lt (n := (b + 8) / 8) (k := 30) (by omega)).2 (by omega)
        omega
    simp only [if_neg this]
    exact ⟨_, rfl⟩
  have hs : ∃ ws, serializeInt n WS.headed = .ok ws := by
    unfold serializeInt
    by_cases h1 : inUint32 n = true
    · rw [if_pos h1]
      have hu : ∃ bs, writeUint32 n = .ok bs := by
        unfold writeUint32
        rw [if_neg (by simpa [inUint32] using h1)]
        unfold writeVarintInt
        simp only [inUint32, Bool.and_eq_true, decide_eq_true_eq] at h1
        rw [if_neg (by omega)]; exact ⟨_, rfl⟩
      obtain ⟨bs, hb⟩ := hu
      rw [hb]; exact ⟨_, rfl⟩
    · rw [if_neg h1]
      by_cases h2 : inInt32 n = true
      · rw [if_pos h2]
        have hu : ∃ bs, writeInt32 n = .ok bs := by
          unfold writeInt32
          rw [if_neg (by simpa [inInt32] using h2)]
          unfold writeZigzag writeVarintInt encodeZigzag
          rw [if_neg (by split <;> omega)]; exact ⟨_, rfl⟩
        obtain ⟨bs, hb⟩ := hu
        rw [hb]; exact ⟨_, rfl⟩
      · rw [if_neg h2]
        by_cases h3 : inSafeInt n = true
        · rw [if_pos h3]; exact ⟨_, rfl⟩
        · rw [if_neg h3]
          obtain ⟨bs, hb⟩ := hok
          rw [if_neg (by simp [WS.headed, WS.new]), hb]
          exact ⟨_, rfl⟩
  obtain ⟨ws, hw⟩ := hs
  refine ⟨ws.data, ?_⟩
  unfold dumps
  rw [dumps_int, hw]
  rfl

example : (dumps (exampleEnc []) (.int (2 ^ 53 - 1))).toOption.isSome = true ∧
    (readBack [] (.int (2 ^ 53 - 1))).map (·.1) = some (.float 0x433FFFFFFFFFFFFF) ∧
    (readBack [] (.int (-2 ^ 53))).map (·.1) = some (.int (-2 ^ 53)) := by decide +kernel

/-! ## C12 -/

/-- C12 (partial: without the objects that the two sides number differently): after reading what was
written, the reader has as many numbers as the writer, and whatever value the writer gave number
`m`, the reader's number `m` is what that value came back as. -/
theorem C12_same_numbering_partial {env : EEnv} (he : Encodable env) (hn : NumberedAlike env) {denv : DEnv}
    (hpy : denv.py = env.py) {v : Val} {ws : WS} (h : dumpsState env v = .ok ws) :
    ∃ z P w ds, loads denv ws.data = .ok (w, ds) ∧ SameGraph env z P v w ds.heap ∧
      ds.log.slots.length = ws.log.slots.length ∧
      ∀ a m, Dict.get ws.log.ids a = some m → ∃ b, P a b ∧ ds.log.slots[m]? = some (.obj b) := by
  obtain ⟨hsk, hb⟩ := dumps_no_skew (NumberedAlike.skews hn) h
  obtain ⟨z, P, w, ds, h1, h2, h3, h5, h6⟩ := dumps_sameGraph he hpy h hb (suf := []) (by simp [NV])
  rw [List.append_nil] at h1
  refine ⟨z, P, w, ds, h1, h3, h6.count hsk, ?_⟩
  intro a m ha
  obtain ⟨_, b, hP, hs⟩ := h6.logged a m ha
  exact ⟨b, hP, hs (by rw [hsk]; simp)⟩

/-- C12 with every kind of object, up to the number at which the two sides diverge (`skew`). -/
theorem C12_same_numbering_until_skew_partial {env : EEnv} (he : Encodable env) {denv : DEnv}
    (hpy : denv.py = env.py) {v : Val} {ws : WS} (h : dumpsState env v = .ok ws) (hb : ws.badRef = false) :
    ∃ z P w ds, loads denv ws.data = .ok (w, ds) ∧ SameGraph env z P v w ds.heap ∧
      ∀ a m, Dict.get ws.log.ids a = some m → (∀ k, ws.skew = some k → m < k) →
        ∃ b, P a b ∧ ds.log.slots[m]? = some (.obj b) := by
  obtain ⟨z, P, w, ds, h1, h2, h3, h5, h6⟩ := dumps_sameGraph he hpy h hb (suf := []) (by simp [NV])
  rw [List.append_nil] at h1
  refine ⟨z, P, w, ds, h1, h3, ?_⟩
  intro a m ha hk
  obtain ⟨_, b, hP, hs⟩ := h6.logged a m ha
  exact ⟨b, hP, hs hk⟩

/-- The numbers given out by the writer and by the reader of `[x, {}]`. -/
def countsOf (n : Node) : Option (Nat × Nat) :=
  match dumpsState (exampleEnc [.pylist [.obj 1, .obj 2], n, .jsobj JSObj.empty]) (.obj 0) with
  | .ok ws =>
    match loads exampleDec ws.data with
    | .ok (_, ds) => some (ws.log.slots.length, ds.log.slots.length)
    | .error _ => none
  | .error _ => none

/-- C12 disagreements: with `x` a RegExp or an Error without cause the reader gives out one number
more than the writer, with a shared or transferred buffer one less. -/
theorem C12_numbering_differs :
    countsOf (.regexp ⟨[97], 0⟩) = some (2, 3) ∧ countsOf (.error [] none none .null) = some (2, 3) ∧
    countsOf (.sharedBuf 3) = some (3, 2) ∧ countsOf (.transferBuf 3) = some (3, 2) := by decide +kernel

example : countsOf (.jsset [.int 3]) = some (3, 3) := by decide +kernel

/-! ## C20 -/

/-- C20 (partial): what `deduplicate` returns is the value itself, or one float zero for another, or an
object that Python considers equal and of the same type; `MemoOK` holds of the cache in every run
(`C20_cache`). -/
theorem C20_dedup_partial {env : EEnv} (v : Val) {ws : WS} (hm : MemoOK env ws.memo) :
    (deduplicate env v ws).1 = v ∨
    (∃ x y, v = .float x ∧ (deduplicate env v ws).1 = .float y ∧ fval x = .fin 0 ∧ fval y = .fin 0) ∨
    (∃ i j, v = .obj i ∧ (deduplicate env v ws).1 = .obj j ∧ Interchangeable env i j) := by
  rcases deduplicate_key v hm with h | ⟨k, h1, h2⟩
  · exact Or.inl h
  · right
    cases v with
    | float x =>
      simp only [dkey] at h2
      split at h2
      · cases h2
        cases hd : (deduplicate env (.float x) ws).1 with
        | float y =>
          rw [hd] at h1
          simp only [dkey] at h1
          split at h1
          · exact Or.inl ⟨x, y, rfl, rfl, by assumption, by assumption⟩
          · cases h1
        | obj j => rw [hd] at h1; simp [dkey] at h1
        | _ => rw [hd] at h1; simp [dkey] at h1
      · cases h2
    | obj i =>
      simp only [dkey, Option.map_eq_some_iff] at h2
      obtain ⟨c, hc, rfl⟩ := h2
      cases hd : (deduplicate env (.obj i) ws).1 with
      | float y =>
        rw [hd] at h1
        simp only [dkey] at h1
        split at h1 <;> cases h1
      | obj j =>
        rw [hd] at h1
        simp only [dkey, Option.map_eq_some_iff] at h1
        obtain ⟨c', hc', h⟩ := h1
        cases h
        exact Or.inr ⟨i, j, rfl, rfl, Or.inr ⟨c, hc, hc'⟩⟩
      | _ => rw [hd] at h1; simp [dkey] at h1
    | _ => simp [dkey] at h2

/-- C20: the cache condition of `C20_dedup_partial` holds at the start of every `dumps` and is kept by
everything that is written. -/
theorem C20_cache (env : EEnv) : MemoOK env WS.headed.memo ∧
    ∀ f v ws ws', MemoOK env ws.memo → encodeObject env f v ws = .ok ws' → MemoOK env ws'.memo := by
  have H : WrClosed env (fun ws => MemoOK env ws.memo) (fun _ ws => MemoOK env ws.memo)
      (fun a b => MemoOK env a.memo → MemoOK env b.memo) :=
    { refl := fun _ h => h, trans := fun h1 h2 h => h2 (h1 h), data := fun _ _ h => h, allowed := fun _ _ h => h,
      record := fun _ _ _ h => h, beginA := fun _ _ _ h => h, endA := fun _ _ _ _ h => h,
      mark := fun _ _ _ _ ws ws' h hm => by cases h; exact hm,
      note := fun ws ws' n h hm => by cases h; exact hm,
      cur := fun h1 h2 => h1 h2, curInv := fun h => h, inv := fun h1 h2 => h1 h2,
      dedup := fun ws v hi => ⟨fun _ => deduplicate_memo v hi, deduplicate_memo v hi⟩ }
  refine ⟨by simp [MemoOK, WS.headed, WS.new, Dict.get], ?_⟩
  intro f v ws ws' hm h
  exact H.encodeObject f v ws ws' hm h hm

/-- C20 disagreement: `loads(dumps(-0.0))` is `-0.0`, but in `loads(dumps([0.0, -0.0]))` the second
element is `0.0`. -/
theorem C20_zeros_merged :
    (readBack [] (.float 0x8000000000000000)).map (·.1) = some (.float 0x8000000000000000) ∧
    readBack [.pylist [.float 0, .float 0x8000000000000000]] (.obj 0)
      = some (.obj 0, [.jsarr ⟨.dense ⟨[some (.float 0), some (.float 0)], 2⟩, []⟩], 25) := by decide +kernel

/-- `[(1,), (True,)]`; the tuples are equal and hashable, the list is not hashable. -/
def twoTuples : EEnv :=
  { exampleEnc [.pylist [.obj 1, .obj 2], .pylist [.int 1], .pylist [.bool true]] with
    hkey := fun i => if i = 0 then none else some 7 }

/-- C20 disagreement: `loads(dumps([(1,), (True,)]))` contains the first tuple twice. -/
theorem C20_tuples_merged : ∃ bytes, dumps twoTuples (.obj 0) = .ok bytes ∧
    result (loads exampleDec bytes) = some (.obj 0,
      [.jsarr ⟨.dense ⟨[some (.obj 1), some (.obj 1)], 2⟩, []⟩, .jsarr ⟨.dense ⟨[some (.int 1)], 1⟩, []⟩], 16) := by
  have h : (match dumps twoTuples (.obj 0) with | .ok b => result (loads exampleDec b) | .error _ => none) =
    some (.obj 0, [.jsarr ⟨.dense ⟨[some (.obj 1), some (.obj 1)], 2⟩, []⟩,
      .jsarr ⟨.dense ⟨[some (.int 1)], 1⟩, []⟩], 16) := by decide +kernel
  cases hd : dumps twoTuples (.obj 0) with
  | error e => rw [hd] at h; cases h
  | ok b => rw [hd] at h; exact ⟨b, rfl, h⟩

/-! ## C26, C25 -/

/-- The empty indexes of an array agree with those of what it came back as. -/
theorem sameItems_holes {env : EEnv} {z : F64} {P : Val → Val → Prop} {o o' : JSObj Val} (ho : o.Inv) (ho' : o'.Inv)
    (hl : o'.array.len = o.array.len) (h : SameItems env z P o.items o'.items) (k : Nat) (hk : k < o.array.abs.length) :
    (o'.array.getitem k = .ok none ↔ o.array.getitem k = .ok none) ∧
    ∀ x, o.array.getitem k = .ok (some x) → ∃ y, o'.array.getitem k = .ok (some y) ∧ SameVal env z P x y := by
  have hl' : o'.array.abs.length = o.array.abs.length := by
    have := Arr.len_eq ho.arr
    have := Arr.len_eq ho'.arr
    omega
  rw [Arr.getitem_nat ho.arr k hk, Arr.getitem_nat ho'.arr k (by omega)]
  have hmem : ∀ (q : JSObj Val), q.Inv → ∀ x, (.idx k, x) ∈ q.items ↔ (q.array.abs[k]?).join = some x := by
    intro q hq x
    rw [JSObj.items_eq hq, List.mem_append]
    constructor
    · rintro (h | h)
      · obtain ⟨a, ha, he⟩ := List.mem_map.mp h
        cases he
        exact (mem_itemsOf _ _ _).1 ha
      · obtain ⟨a, _, he⟩ := List.mem_map.mp h
        cases he
    · intro h
      exact Or.inl (List.mem_map.mpr ⟨(k, x), (mem_itemsOf _ _ _).2 h, rfl⟩)
  have hfwd : ∀ x, (o.array.abs[k]?).join = some x → ∃ y, (o'.array.abs[k]?).join = some y ∧ SameVal env z P x y := by
    intro x hx
    obtain ⟨b, hb, h1, h2⟩ := Forall₂.mem_left h ((hmem o ho x).2 hx)
    obtain ⟨bk, by'⟩ := b
    cases h1
    exact ⟨by', (hmem o' ho' by').1 hb, h2⟩
  have hbwd : ∀ y, (o'.array.abs[k]?).join = some y → ∃ x, (o.array.abs[k]?).join = some x := by
    intro y hy
    obtain ⟨a, ha, h1, h2⟩ := Forall₂.mem_right h ((hmem o' ho' y).2 hy)
    obtain ⟨ak, ax⟩ := a
    cases h1
    exact ⟨ax, (hmem o ho ax).1 ha⟩
  refine ⟨?_, ?_⟩
  · cases hx : (o.array.abs[k]?).join with
    | none =>
      cases hy : (o'.array.abs[k]?).join with
      | none => simp
      | some y => obtain ⟨x, hx'⟩ := hbwd y hy; rw [hx] at hx'; cases hx'
    | some x =>
      obtain ⟨y, hy, _⟩ := hfwd x hx
      rw [hy]; simp
  · intro x hx
    simp only [Except.ok.injEq] at hx
    obtain ⟨y, hy, h2⟩ := hfwd x hx
    exact ⟨y, by rw [hy], h2⟩

/-- A JSArray in the graph. -/
theorem array_pair {env : EEnv} (he : Encodable env) {z : F64} {P : Val → Val → Prop} {v w : Val} {h' : Heap}
    (hg : SameGraph env z P v w h') {i : Id} {o : JSObj Val} (hi : env.heap[i]? = some (.jsarr o)) {b : Val}
    (hP : P (.obj i) b) :
    ∃ (j : Id) (o' : JSObj Val), b = .obj j ∧ h'[j]? = some (.jsarr o') ∧ o'.array.len = o.array.len ∧
      ∀ k : Nat, k < o.array.len →
        (o'.array.getitem k = .ok none ↔ o.array.getitem k = .ok none) ∧
        ∀ x, o.array.getitem k = .ok (some x) → ∃ y, o'.array.getitem k = .ok (some y) ∧ SameVal env z P x y := by
  obtain ⟨n, h1, h2⟩ := hg.objects _ _ hP
  rw [hi] at h1
  cases h1
  obtain ⟨j, n', h3, h4, h5⟩ := h2
  cases n' <;> simp only [SameContent] at h5
  rename_i o'
  have ho : ObjOK env o := he.nodes i _ hi
  refine ⟨j, o', h3, h4, h5.2.1, fun k hk => ?_⟩
  rw [Arr.len_eq ho.inv.arr] at hk
  exact sameItems_holes ho.inv h5.1 h5.2.1 h5.2.2 k (by omega)

/-- C26 (partial: for the graphs of C11): every JSArray comes back as a JSArray of the same length, with
a hole exactly where it had one, and the elements elsewhere. -/
theorem C26_length_and_holes_partial {env : EEnv} (he : Encodable env) {denv : DEnv}
    (hpy : denv.py = env.py) {v : Val} (hn : NumbersAgree env v) {bytes : Bytes} (h : dumps env v = .ok bytes) :
    ∃ z P w ds, loads denv bytes = .ok (w, ds) ∧ SameGraph env z P v w ds.heap ∧
      ∀ (i : Id) (o : JSObj Val) (b : Val), env.heap[i]? = some (.jsarr o) → P (.obj i) b →
        ∃ (j : Id) (o' : JSObj Val), b = .obj j ∧ ds.heap[j]? = some (.jsarr o') ∧ o'.array.len = o.array.len ∧
          ∀ k : Nat, k < o.array.len →
            (o'.array.getitem k = .ok none ↔ o.array.getitem k = .ok none) ∧
            ∀ x, o.array.getitem k = .ok (some x) → ∃ y, o'.array.getitem k = .ok (some y) ∧ SameVal env z P x y := by
  obtain ⟨z, P, w, ds, h1, h2⟩ := C11_round_trip_partial he hpy v hn bytes h
  exact ⟨z, P, w, ds, h1, h2, fun i o b hi hP => array_pair he h2 hi hP⟩

/-- Five elements of which the first, the third and the last are holes. -/
example : readBack [.jsarr ⟨.dense ⟨[none, some (.int 7), none, some (.str [120]), none], 2⟩, [([107], .null)]⟩] (.obj 0)
    = some (.obj 0, [.jsarr ⟨.dense ⟨[none, some (.int 7), none, some (.str [120]), none], 2⟩, [([107], .null)]⟩], 19) := by
  decide +kernel

/-- An array of a shared buffer and, twice, of an array of two elements. -/
def sharedArray : Heap := [.jsarr (arrayOf [some (.obj 1), some (.obj 2), some (.obj 2)]), .sharedBuf 3, .jsarr (arrayOf [some (.int 1), none])]

theorem sharedArray_ok : Encodable (exampleEnc sharedArray) where
  nodes := by
    intro i n hi
    simp only [exampleEnc, sharedArray] at hi
    rcases i with _ | _ | _ | i
    · cases hi; exact arrayOf_ok _ (by decide) (by decide)
    · cases hi; show (3 : Int) < 2 ^ 32; decide
    · cases hi; exact arrayOf_ok _ (by decide) (by decide)
    · cases hi
  buffers := fun i j hij _ => by rw [exampleEnc_same hij]

/-- C26 disagreement: after a shared buffer, an array that occurs twice makes the message unreadable. -/
theorem C26_fails_after_shared_buffer : ∃ (env : EEnv) (o : JSObj Val), Encodable env ∧ env.heap[0]? = some (.jsarr o) ∧
    Unreadable env (.obj 0) :=
  ⟨exampleEnc sharedArray, _, sharedArray_ok, rfl, unreadable (by decide +kernel) (by decide +kernel)⟩

/-- Reading back a message that consists of one array, in the given wire form. -/
def FormReadsBack (env : EEnv) (denv : DEnv) (i : Id) (o : JSObj Val) (form : Wr) : Prop :=
  ∀ ws, form WS.headed = .ok ws → ∃ z P j ds o', loads denv ws.data = .ok (.obj j, ds) ∧ P (.obj i) (.obj j) ∧
    SameGraph env z P (.obj i) (.obj j) ds.heap ∧ ds.heap[j]? = some (.jsarr o') ∧
    o'.array.len = o.array.len ∧ SameItems env z P o.items o'.items

/-- C25 (partial: for the graphs of C11): an array written in the dense form, and the same array written
in the sparse form, read back as an array of the same length with the same keys in the same order and
the same values, whichever of the two forms the encoder would choose. -/
theorem C25_dense_or_sparse_partial {env : EEnv} (he : Encodable env) {denv : DEnv} (hpy : denv.py = env.py) {i : Id}
    {o : JSObj Val} (hi : env.heap[i]? = some (.jsarr o)) (hk : env.hkey i = none) (hn : NumbersAgree env (.obj i)) (f : Nat) :
    FormReadsBack env denv i o
      (writeDenseArray (encodeObject env f) (o.array.toList.map elemVal) (propVals o.props) (.obj i)) ∧
    FormReadsBack env denv i o (writeSparseArray (encodeObject env f) (itemVals o.items) o.array.len (.obj i)) := by
  have ho : ObjOK env o := he.nodes i _ hi
  have hrec := fun z => (encode_back (z := z) he hpy f (f + 1) (Nat.lt_succ_self _)).1
  have ht := Encodable.wellTyped he
  have hrep := rep_closed env
  have hr0 : RepInv env WS.headed :=
    ⟨by simp [MemoOK, WS.headed, WS.new, Dict.get], by simp [WS.headed, WS.new, ObjLog.empty, Dict.get]⟩
  have hcur : RepInv env WS.headed ∧ IsRep env (.obj i) WS.headed := ⟨hr0, by simp [IsRep, dkey, hk]⟩
  have hS : Begun env [] WS.headed := by
    rintro x ⟨n, h⟩
    simp [WS.headed, WS.new, ObjLog.empty, Dict.get] at h
  have hopen : ∀ cs, (∀ x, IsObj x → cs.count x = (members (.jsarr o)).count x) → MentionedOnce env (.obj i) →
      Budget env (cs ++ []) [.obj i] := by
    intro cs hcs ho x hx
    have h1 := ho x hx
    rw [List.count_cons, ← unopened_nil, unopened_open hi (by simp)] at h1
    rw [List.append_nil, hcs x (Numbered.isObj hx), List.count_cons, List.count_nil]
    omega
  have hu : Numbered env (.obj i) := by simp [Numbered, IsUnlogged, hi]
  have key : ∀ ws, (∀ z, Obl env z (decodeTag denv (f + 1 + 1)) (.obj i) WS.headed ws) → ws.badRef = false → RepInv env ws →
      Zeros env (fun _ => False) WS.headed ws →
      ∃ z P j ds o', loads denv ws.data = .ok (.obj j, ds) ∧ P (.obj i) (.obj j) ∧
      SameGraph env z P (.obj i) (.obj j) ds.heap ∧ ds.heap[j]? = some (.jsarr o') ∧
      o'.array.len = o.array.len ∧ SameItems env z P o.items o'.items := by
    intro ws hobl hb hri hz
    have hf := WS.zero_fine hri.1 hb
    obtain ⟨P, w, ds, h1, h2, h3, h4, h5, h6⟩ := root_loads (hobl _) hf (suf := []) (by simp [NV])
    rw [List.append_nil] at h1
    have hg := sameGraph_of_rep hri (v := .obj i) { hz with
      source := fun u hu => (hz.source u hu).imp_right fun h => h.imp_left False.elim
      done := fun x hx => by cases hx } hf h3 h4 h6
    obtain ⟨j', hij, hP⟩ := h3
    have : i = j' := by
      rcases hij with h | ⟨c, h, _⟩
      · exact h
      · rw [hk] at h; cases h
    subst this
    obtain ⟨n, g1, g2⟩ := h4 _ _ hP
    rw [hi] at g1
    cases g1
    obtain ⟨j, n', rfl, g4, g5⟩ := g2
    cases n' <;> simp only [SameContent] at g5
    rename_i o'
    exact ⟨_, P, j, ds, o', h1, hP, hg, g4, g5.2.1, g5.2.2⟩
  refine ⟨fun ws h => ?_, fun ws h => ?_⟩
  · exact key ws (fun z => dense_back hpy (hrec z) h rfl rfl hi ho)
      (by
        rcases hn with hn | ⟨hn, hm⟩
        · have hkeep := skew_closed (NumberedAlike.skews hn)
          exact (hkeep.writeDenseArray (fun v => hkeep.encodeObject f v) _ _ _ _ trivial h ⟨rfl, rfl⟩).2
        · exact ((nodeShaped_dense _ _ _ _ h).once (encode_once ht hn f)
            (hopen _ (fun x hx => count_dense ho.inv hx) hm) hu hS hr0.1).elim fun _ g => g.2.2.2.2)
      ((hrep.writeDenseArray (fun v => hrep.encodeObject f v) _ _ _ _ hcur h).inv hr0)
      ((nodeShaped_dense _ _ _ _ h).zeros (encode_zeros ht f) (Or.inr ⟨i, _, rfl, hi, fun y => floats_dense ho.inv y⟩))
  · exact key ws (fun z => sparse_back hpy (hrec z) h rfl rfl hi ho)
      (by
        rcases hn with hn | ⟨hn, hm⟩
        · have hkeep := skew_closed (NumberedAlike.skews hn)
          exact (hkeep.writeSparseArray (fun v => hkeep.encodeObject f v) _ _ _ _ trivial h ⟨rfl, rfl⟩).2
        · exact ((nodeShaped_sparse _ _ _ _ h).once (encode_once ht hn f)
            (hopen _ (fun x hx => count_items hx) hm) hu hS hr0.1).elim fun _ g => g.2.2.2.2)
      ((hrep.writeSparseArray (fun v => hrep.encodeObject f v) _ _ _ _ hcur h).inv hr0)
      ((nodeShaped_sparse _ _ _ _ h).zeros (encode_zeros ht f) (Or.inr ⟨i, _, rfl, hi, fun y => floats_items _ y⟩))

/-- The two forms of `[, 7, , "x", ,]` with property `k`, read back. -/
example :
    let o : JSObj Val := ⟨.dense ⟨[none, some (.int 7), none, some (.str [120]), none], 2⟩, [([107], .null)]⟩
    let env := exampleEnc [.jsarr o]
    (match writeDenseArray (encodeObject env 3) (o.array.toList.map elemVal) (propVals o.props) (.obj 0) WS.headed with
      | .ok ws => (result (loads exampleDec ws.data)).map (·.2.1)
      | .error _ => none) = some [.jsarr o] ∧
    (match writeSparseArray (encodeObject env 3) (itemVals o.items) o.array.len (.obj 0) WS.headed with
      | .ok ws => (result (loads exampleDec ws.data)).map (·.2.1)
      | .error _ => none) = some [.jsarr o] := by decide +kernel

/-- C25 disagreement: the array above cannot be read in either form. -/
theorem C25_fails_after_shared_buffer : ∃ (env : EEnv) (o : JSObj Val), Encodable env ∧ env.heap[0]? = some (.jsarr o) ∧
    ¬ FormReadsBack env exampleDec 0 o
      (writeDenseArray (encodeObject env 3) (o.array.toList.map elemVal) (propVals o.props) (.obj 0)) ∧
    ¬ FormReadsBack env exampleDec 0 o (writeSparseArray (encodeObject env 3) (itemVals o.items) o.array.len (.obj 0)) := by
  refine ⟨exampleEnc sharedArray, _, sharedArray_ok, rfl, fun h => ?_, fun h => ?_⟩
  · have hr : (match writeDenseArray (encodeObject (exampleEnc sharedArray) 3)
        ((arrayOf [some (.obj 1), some (.obj 2), some (.obj 2)]).array.toList.map elemVal) (propVals []) (.obj 0) WS.headed with
        | .ok ws => (result (loads exampleDec ws.data)).isSome
        | .error _ => true) = false := by decide +kernel
    generalize hf : writeDenseArray (encodeObject (exampleEnc sharedArray) 3)
        ((arrayOf [some (.obj 1), some (.obj 2), some (.obj 2)]).array.toList.map elemVal) (propVals []) (.obj 0) WS.headed = f at hr
    cases f with
    | error e => cases hr
    | ok ws =>
      obtain ⟨_, _, _, _, _, h1, _⟩ := h ws hf
      simp only [h1, result] at hr
      cases hr
  · have hr : (match writeSparseArray (encodeObject (exampleEnc sharedArray) 3)
        (itemVals (arrayOf [some (.obj 1), some (.obj 2), some (.obj 2)]).items)
        (arrayOf [some (.obj 1), some (.obj 2), some (.obj 2)]).array.len (.obj 0) WS.headed with
        | .ok ws => (result (loads exampleDec ws.data)).isSome
        | .error _ => true) = false := by decide +kernel
    generalize hf : writeSparseArray (encodeObject (exampleEnc sharedArray) 3)
        (itemVals (arrayOf [some (.obj 1), some (.obj 2), some (.obj 2)]).items)
        (arrayOf [some (.obj 1), some (.obj 2), some (.obj 2)]).array.len (.obj 0) WS.headed = f at hr
    cases f with
    | error e => cases hr
    | ok ws =>
      obtain ⟨_, _, _, _, _, h1, _⟩ := h ws hf
      simp only [h1, result] at hr
      cases hr

/-! ## C44 -/

/-- C44 (partial: for the graphs of C11): a view on a buffer `buf` with contents `mv` comes back as a view
of the same kind on a buffer with the same contents, with the same byte offset and exposing the same
bytes; over a resizable JSArrayBuffer with the feature enabled, the buffer is still resizable and the
view length-tracking if it was.  Views on one buffer come back as views on one buffer. -/
theorem C44_views_partial {env : EEnv} (he : Encodable env) {denv : DEnv}
    (hpy : denv.py = env.py) {v : Val} (hn : NumbersAgree env v) {bytes : Bytes} (h : dumps env v = .ok bytes) :
    ∃ z P w ds, loads denv bytes = .ok (w, ds) ∧ SameGraph env z P v w ds.heap ∧
      (∀ (i : Id) (buf : Val) (u : View) (b : Val) (mv : Bytes), env.heap[i]? = some (.view buf u) → P (.obj i) b →
        backingBytes env.heap buf = some mv →
        ∃ (j : Id) (buf' : Val) (u' : View), b = .obj j ∧ ds.heap[j]? = some (.view buf' u') ∧
          backingBytes ds.heap buf' = some mv ∧ u'.tag = u.tag ∧ u'.byteOffset mv = u.byteOffset mv ∧
          u'.bytes mv = u.bytes mv ∧
          ∀ (k : Id) (ab : ABuf), buf = .obj k → env.heap[k]? = some (.abuf ab) →
            env.feats.resizableArrayBuffers = true → ab.resizable = true →
            backingResizable ds.heap buf' = true ∧ u'.isLengthTracking true = u.isLengthTracking true) ∧
      (∀ (i₁ i₂ : Id) (buf : Val) (u₁ u₂ : View) (j₁ j₂ : Id) (buf₁ buf₂ : Val) (w₁ w₂ : View),
        env.heap[i₁]? = some (.view buf u₁) → env.heap[i₂]? = some (.view buf u₂) →
        P (.obj i₁) (.obj j₁) → P (.obj i₂) (.obj j₂) → ds.heap[j₁]? = some (.view buf₁ w₁) →
        ds.heap[j₂]? = some (.view buf₂ w₂) → buf₁ = buf₂) := by
  obtain ⟨ws, hw, rfl⟩ := dumps_state h
  obtain ⟨z, P, w, ds, h1, h2, hg, h5, h6⟩ :=
    dumps_sameGraph he hpy hw (NumbersAgree.refs (Encodable.wellTyped he) hn hw) (suf := []) (by simp [NV])
  rw [List.append_nil] at h1
  have h4 := hg.objects
  have hview : ∀ (i : Id) (buf : Val) (u : View) (b : Val), env.heap[i]? = some (.view buf u) → P (.obj i) b →
      ∃ (j : Id) (buf' : Val) (u' : View), b = .obj j ∧ ds.heap[j]? = some (.view buf' u') ∧
        SameVal env z P buf buf' ∧ SameView env.heap buf u u' := by
    intro i buf u b hi hP
    obtain ⟨n, g1, g2⟩ := h4 _ _ hP
    rw [hi] at g1
    cases g1
    obtain ⟨j, n', rfl, g4, g5⟩ := g2
    cases n' <;> simp only [SameContent] at g5
    exact ⟨j, _, _, rfl, g4, g5.1, g5.2⟩
  refine ⟨z, P, w, ds, h1, hg, ?_, ?_⟩
  · intro i buf u b mv hi hP hmv
    obtain ⟨j, buf', u', g1, g2, g3, g4⟩ := hview i buf u b hi hP
    have hok : ViewOK env buf u := he.nodes i _ hi
    obtain ⟨k1, k2⟩ := buffer_back he h5 hok.1 g3
    simp only [SameView, hmv] at g4
    refine ⟨j, buf', u', g1, g2, by rw [k1, hmv], g4.1, g4.2.1, g4.2.2.1, ?_⟩
    intro k ab hk hab hf hr
    have hres : backingResizable env.heap buf = true := by simp only [hk, backingResizable, hab, hr]
    refine ⟨k2 ⟨k, ab, hk, hab, hf⟩ hres, ?_⟩
    simp only [View.isLengthTracking, Bool.and_true]
    have := g4.2.2.2
    rw [hres] at this
    cases h1 : u'.itemLength <;> cases h2 : u.itemLength <;> simp_all
  · intro i₁ i₂ buf u₁ u₂ j₁ j₂ buf₁ buf₂ w₁ w₂ hi1 hi2 hP1 hP2 hj1 hj2
    obtain ⟨_, _, _, a1, a2, a3, _⟩ := hview i₁ buf u₁ _ hi1 hP1
    obtain ⟨_, _, _, b1, b2, b3, _⟩ := hview i₂ buf u₂ _ hi2 hP2
    cases a1; cases b1
    rw [hj1] at a2
    rw [hj2] at b2
    cases a2; cases b2
    have hbuf : IsBuffer env.heap buf := (he.nodes i₁ _ hi1 : ViewOK env buf u₁).1
    have hnot : ∀ x, IsBuffer env.heap x → ¬ IsUnlogged env x := by
      intro x hx hu
      cases x <;> simp only [IsBuffer, IsUnlogged] at hx hu
      rename_i k
      cases hk : env.heap[k]? with
      | none => simp [hk] at hx
      | some n => cases n <;> simp [hk] at hx hu
    cases buf with
    | bytes bs =>
      rcases hg.shared _ _ _ _ a3 b3 (Or.inl rfl) with h | h | h
      · exact (hnot _ hbuf h).elim
      · exact (hnot _ hbuf h).elim
      · exact h
    | obj k =>
      obtain ⟨k1, c1, d1⟩ := a3
      obtain ⟨k2, c2, d2⟩ := b3
      have e1 := he.buffers k k1 c1 hbuf
      have e2 := he.buffers k k2 c2 hbuf
      have hb1 : IsBuffer env.heap (.obj k1) := by simp only [IsBuffer, e1] at hbuf ⊢; exact hbuf
      have hb2 : IsBuffer env.heap (.obj k2) := by simp only [IsBuffer, e2] at hbuf ⊢; exact hbuf
      have hone : OneObject env (.obj k1) (.obj k2) := by
        rcases c1 with rfl | ⟨c, x1, x2⟩
        · exact Or.inr ⟨_, _, rfl, rfl, c2⟩
        · rcases c2 with rfl | ⟨c', y1, y2⟩
          · exact Or.inr ⟨_, _, rfl, rfl, Or.inr ⟨c, x2, x1⟩⟩
          · rw [x1] at y1
            cases y1
            exact Or.inr ⟨_, _, rfl, rfl, Or.inr ⟨c, x2, y2⟩⟩
      rcases hg.shared _ _ _ _ d1 d2 hone with h | h | h
      · exact (hnot _ hb1 h).elim
      · exact (hnot _ hb2 h).elim
      · exact h
    | _ => exact hbuf.elim

/-- Two views of one resizable buffer, the second length-tracking, read back. -/
example : readBack [.pylist [.obj 1, .obj 2], .view (.obj 3) ⟨.uint16, 1, some 1⟩, .view (.obj 3) ⟨.uint8, 1, none⟩,
      .abuf ⟨[1, 2, 3, 4], 8, true⟩] (.obj 0)
    = some (.obj 0, [.jsarr ⟨.dense ⟨[some (.obj 2), some (.obj 3)], 2⟩, []⟩, .abuf ⟨[1, 2, 3, 4], 8, true⟩,
      .view (.obj 1) ⟨.uint16, 1, some 1⟩, .view (.obj 1) ⟨.uint8, 1, none⟩], 26) := by decide +kernel

/-- A RegExp and two views of one buffer. -/
def viewsAfterRegexp : Heap :=
  [.pylist [.obj 1, .obj 2, .obj 3], .regexp ⟨[97], 0⟩, .view (.obj 4) ⟨.uint8, 0, some 1⟩,
   .view (.obj 4) ⟨.uint8, 1, some 1⟩, .abuf ⟨[1, 2], 2, false⟩]

/-- C44 disagreement: after a RegExp, two views of one buffer make the message unreadable. -/
theorem C44_fails_after_regexp : ∃ env : EEnv, Encodable env ∧ Unreadable env (.obj 0) := by
  refine ⟨exampleEnc viewsAfterRegexp, ⟨?_, fun i j hij _ => by rw [exampleEnc_same hij]⟩, unreadable (by decide +kernel) (by decide +kernel)⟩
  intro i n hi
  simp only [exampleEnc, viewsAfterRegexp] at hi
  rcases i with _ | _ | _ | _ | _ | i
  · cases hi; simp [NodeOK]
  · cases hi; show mkRegExp _ _ = _; decide +kernel
  · cases hi
    refine ⟨trivial, fun mv hmv => ?_⟩
    cases hmv
    exact ⟨by decide +kernel, by simp⟩
  · cases hi
    refine ⟨trivial, fun mv hmv => ?_⟩
    cases hmv
    exact ⟨by decide +kernel, by simp⟩
  · cases hi; trivial
  · cases hi

/-! ## C46 -/

/-- C46 (partial: for the graphs of C11): if two graphs (in two heaps, with whatever features) are written
as the same bytes, then they came back as one and the same graph: each is equal to it in the sense of
C11. -/
theorem C46_injective_partial {env₁ env₂ : EEnv} (he₁ : Encodable env₁) {v₁ v₂ : Val} (hn₁ : NumbersAgree env₁ v₁)
    (he₂ : Encodable env₂) (hn₂ : NumbersAgree env₂ v₂) (hpy : env₁.py = env₂.py) {bytes : Bytes}
    (h₁ : dumps env₁ v₁ = .ok bytes) (h₂ : dumps env₂ v₂ = .ok bytes) :
    ∃ z₁ z₂ P₁ P₂ w h', SameGraph env₁ z₁ P₁ v₁ w h' ∧ SameGraph env₂ z₂ P₂ v₂ w h' := by
  obtain ⟨z₁, P₁, w, ds, h1, h2⟩ := C11_round_trip_partial he₁ (denv := ⟨env₁.py, false⟩) rfl v₁ hn₁ bytes h₁
  obtain ⟨z₂, P₂, w', ds', h3, h4⟩ := C11_round_trip_partial he₂ (denv := ⟨env₁.py, false⟩) hpy v₂ hn₂ bytes h₂
  rw [h1] at h3
  cases h3
  exact ⟨z₁, z₂, P₁, P₂, w, ds.heap, h2, h4⟩

/-- Different numbers of objects in the heap, the same bytes. -/
example : dumps (exampleEnc [.pylist [.obj 1], .jsset []]) (.obj 0)
    = dumps (exampleEnc [.other, .jsset [], .pylist [.obj 1]]) (.obj 2) := by decide +kernel

/-- C46 disagreement: `[0.0, -0.0]` and `[0.0, 0.0]` are written as the same bytes. -/
theorem C46_zeros_collide : dumps (exampleEnc [.pylist [.float 0, .float 0x8000000000000000]]) (.obj 0)
    = dumps (exampleEnc [.pylist [.float 0, .float 0]]) (.obj 0) := by decide +kernel

/-! ## C47 (dumps and loads) -/

/-- C47: in every graph that comes back, every error has its name if that is a known one, and else the
name `Error`. -/
theorem C47_names_survive {env : EEnv} {z : F64} {P : Val → Val → Prop} {v w : Val} {h' : Heap} (hg : SameGraph env z P v w h')
    {i : Id} {name : Str} {msg stack : Option Str} {cause b : Val}
    (hi : env.heap[i]? = some (.error name msg stack cause)) (hP : P (.obj i) b) :
    ∃ (j : Id) (name' : Str) (msg' stack' : Option Str) (cause' : Val), b = .obj j ∧
      h'[j]? = some (.error name' msg' stack' cause') ∧
      (name' = name ∨ (name' = str "Error" ∧ ∀ k ∈ knownNames, name ≠ str k)) ∧ ∃ k ∈ knownNames, name' = str k := by
  obtain ⟨n, g1, g2⟩ := hg.objects _ _ hP
  rw [hi] at g1
  cases g1
  obtain ⟨j, n', rfl, g4, g5⟩ := g2
  cases n' <;> simp only [SameContent] at g5
  refine ⟨j, _, _, _, _, rfl, g4, ?_, ?_⟩
  · rcases (C47_name_round_trip name).2 with h | ⟨h, h2⟩
    · exact Or.inl (g5.1.trans h)
    · exact Or.inr ⟨by rw [g5.1, h]; decide, h2⟩
  · rw [g5.1]
    cases ErrName.forName name <;> decide

end V8.Props
