import Verif.Proofs.Nesting
import Verif.Proofs.NestingEncode
import Verif.Proofs.EncodeDepth
import Verif.Props.Language
import Verif.Props.EncodeGlobal

/-!
# C79: Python's recursion limit

`loadsRoom` and `dumpsRoom` are `loads` and `dumps` called with `room` frames left, where a nested value of kind `t`
takes `frames t + 1` of them; all theorems are for any `frames`.
-/

namespace V8.Props

open V8.Spec V8.Spec.Lang V8.Lang

/-! ## loads -/

/-- C79: loads returns or raises the same as with unlimited room, or raises RecursionError.  It never returns
something else. -/
theorem C79_loads_same_or_raises (env : DEnv) (frames : Tag → Nat) (room : Nat) (data : Bytes) :
    loadsRoom env frames room data = loads env data ∨ loadsRoom env frames room data = .error .fuel :=
  loadsRoom_or env frames room data

/-- C79: a message is read if and only if its nesting fits into the room. -/
theorem C79_loads_what_fits (env : DEnv) (frames : Tag → Nat) (room : Nat) (data : Bytes) (v : Val) (w : World) :
    (∃ s, loadsRoom env frames room data = .ok (v, s) ∧ s.heap = w.heap ∧ s.log.slots = w.numbered.map .obj) ↔
      MessageIn env frames room data v w :=
  loadsRoom_iff env frames room data v w

/-- C79: if no value takes more than `K` frames, then a message that is nested `depth` deep is read when there is room
for `K * depth` frames. -/
theorem C79_loads_depth {env : DEnv} {frames : Tag → Nat} {K depth room : Nat} (hK : ∀ t, frames t < K)
    (hr : K * depth ≤ room) {data : Bytes} {v : Val} {w : World} (h : MessageAt env depth data v w) :
    MessageIn env frames room data v w := by
  obtain ⟨s, h1, h2, h3⟩ := (loadsRoom_iff env _ depth data v w).2 h
  refine (loadsRoom_iff env frames room data v w).1 ⟨s, ?_, h2, h3⟩
  cases hh : readHeader data 0 with
  | error e => rw [(loadsRoom_error env _ depth hh).1] at h1; cases h1
  | ok x =>
    obtain ⟨version, p⟩ := x
    rw [loadsRoom_eq env _ depth hh] at h1
    rw [loadsRoom_eq env frames room hh]
    have e1 : decodeNext (decodeTag env depth) data (DS.start p version) = .ok (v, s) := by
      rcases (sub_closed.decodeNext fun t => room_sub env (fun _ => 0) depth depth (Nat.le_refl _) t) data
        (DS.start p version) with hs | hs
      · rw [← hs, h1]
      · rw [h1] at hs; cases hs
    rcases (sub_closed.decodeNext fun t => sub_room env frames K hK depth room hr t) data (DS.start p version) with hs | hs
    · rw [← hs, e1]
    · rw [e1] at hs; cases hs

/-- C79: every message is nested less deep than it has bytes, so it is read if there is room for that. -/
theorem C79_loads_enough_room {env : DEnv} {frames : Tag → Nat} {K room : Nat} (hK : ∀ t, frames t < K) {data : Bytes}
    (hr : K * data.length ≤ room) : loadsRoom env frames room data = loads env data := by
  cases hh : readHeader data 0 with
  | error e => exact (loadsRoom_error env frames room hh).1.trans (loadsRoom_error env frames room hh).2.symm
  | ok x =>
    obtain ⟨version, p⟩ := x
    have hp : 1 ≤ p ∧ p ≤ data.length := by
      obtain ⟨hp, m1, ⟨k, -, g1⟩, ⟨bs, g2, g3⟩, -⟩ := header_spec.sound _ _ _ _ (Nat.zero_le _) hh
      refine ⟨?_, hp⟩
      rcases Nat.eq_zero_or_pos p with rfl | h
      · have := congrArg List.length g1
        rw [g3] at this
        simp at this
        omega
      · exact h
    rw [loadsRoom_eq env frames room hh, loads_deep env hh data.length (by omega)]
    rcases (sub_closed.decodeNext fun t => sub_room env frames K hK data.length room hr t) data (DS.start p version) with hs | hs
    · exact hs.symm
    · exact ((loads_spec env data).2 _ ((loads_deep env hh data.length (by omega)).trans hs)).elim

/-! ### Messages that are too deep -/

/-- A Set in a Set in a Set …: an empty Set within `n` others. -/
def setsIn : Nat → Bytes
  | 0 => [0x27, 0x2c, 0]
  | n + 1 => 0x27 :: setsIn n ++ [0x2c, 1]

theorem setsIn_length (n : Nat) : (setsIn n).length = 3 * n + 3 := by
  induction n with
  | zero => rfl
  | succ n ih => simp only [setsIn, List.cons_append, List.length_cons, List.length_append, List.length_nil, ih]; omega

theorem setTag (m : Bytes) : TagAt (0x27 :: m) .kBeginJSSet m := ⟨0, by decide, rfl⟩

theorem endTag (m : Bytes) : TagAt (0x2c :: m) .kEndJSSet m := ⟨0, by decide, rfl⟩

theorem digit (b : UInt8) (h : b.toNat < 128) (r : Bytes) : Number (b :: r) b.toNat r := ⟨[b], .last b h, rfl⟩

theorem setsIn_fit (env : DEnv) (ver : Nat) (frames : Tag → Nat) (n : Nat) (w : World) (rest : Bytes) :
    ∃ w', Item (BodyIn env ver frames ((frames .kBeginJSSet + 1) * (n + 1))) anyTag w (setsIn n ++ rest) w.next w' rest := by
  induction n generalizing w rest with
  | zero =>
    refine ⟨(w.make (.jsset [])).fill w.next (.jsset (setOf [])), .kBeginJSSet, 0x2c :: 0 :: rest,
      setTag (0x2c :: 0 :: rest), trivial, ?_⟩
    rw [bodyIn_some _ _ (by omega)]
    exact ⟨[], _, _, .nil _ _, ⟨_, endTag _, digit 0 (by decide) _⟩, by simp, rfl, rfl⟩
  | succ n ih =>
    obtain ⟨w', h⟩ := ih (w.make (.jsset [])) ([0x2c, 1] ++ rest)
    refine ⟨w'.fill w.next (.jsset (setOf [(w.make (.jsset [])).next])), .kBeginJSSet, setsIn n ++ ([0x2c, 1] ++ rest), ?_,
      trivial, ?_⟩
    · have := setTag (setsIn n ++ ([0x2c, 1] ++ rest))
      simpa [setsIn] using this
    · have hm : (frames .kBeginJSSet + 1) * (n + 1 + 1) =
          (frames .kBeginJSSet + 1) * (n + 1) + (frames .kBeginJSSet + 1) := Nat.mul_succ _ _
      rw [bodyIn_some _ _ (by omega), hm, Nat.add_sub_cancel]
      refine ⟨[_], _, _, .cons h (.nil _ _), ⟨_, endTag _, digit 1 (by decide) _⟩, ?_, rfl, rfl⟩
      intro x hx
      rw [List.mem_singleton.1 hx]
      exact fun hb => by cases hb

theorem setsIn_tight (env : DEnv) (ver : Nat) (frames : Tag → Nat) (n room : Nat)
    (hr : room < (frames .kBeginJSSet + 1) * (n + 1)) (w w' : World) (rest r : Bytes) (v : Val) :
    ¬ Item (BodyIn env ver frames room) anyTag w (setsIn n ++ rest) v w' r := by
  induction n generalizing room w w' rest r v with
  | zero =>
    rintro ⟨t, m, ht, -, hb⟩
    obtain ⟨rfl, rfl⟩ := tag_fun ht (setTag _)
    rw [bodyIn_none _ _ (by omega)] at hb
    exact hb
  | succ n ih =>
    rintro ⟨t, m, ht, -, hb⟩
    have hs : setsIn (n + 1) ++ rest = 0x27 :: (setsIn n ++ ([0x2c, 1] ++ rest)) := by simp [setsIn]
    rw [hs] at ht
    obtain ⟨rfl, rfl⟩ := tag_fun ht (setTag _)
    by_cases hF : room ≤ frames .kBeginJSSet
    · rw [bodyIn_none _ _ hF] at hb; exact hb
    · rw [bodyIn_some _ _ hF] at hb
      have hm : (frames .kBeginJSSet + 1) * (n + 1 + 1) =
          (frames .kBeginJSSet + 1) * (n + 1) + (frames .kBeginJSSet + 1) := Nat.mul_succ _ _
      obtain ⟨vs, w1, m1, h1, ⟨m2, h2, -⟩, -⟩ := hb
      cases h1 with
      | nil =>
        have h3 : ∃ m3, TagAt (setsIn n ++ ([0x2c, 1] ++ rest)) .kBeginJSSet m3 := by
          cases n with
          | zero => exact ⟨_, setTag _⟩
          | succ n => exact ⟨_, setTag _⟩
        obtain ⟨m3, h3⟩ := h3
        cases (tag_fun h2 h3).1
      | cons h _ => exact ih _ (by omega) _ _ _ _ _ h

/-- C79: for any room there is a message of `3 * n + 5` bytes which loads would read, but raises RecursionError.  (So
with the usual limit of 1000 frames some messages of 3 kB are not read, and the exception is not the documented one;
C17.) -/
theorem C79_loads_too_deep (env : DEnv) (frames : Tag → Nat) (n room : Nat) (hr : room < (frames .kBeginJSSet + 1) * (n + 1)) :
    ∃ data v s, data.length = 3 * n + 5 ∧ loads env data = .ok (v, s) ∧ loadsRoom env frames room data = .error .fuel := by
  have hh : TagAt ([0xff, 0x0f] ++ setsIn n) .kVersion (0x0f :: setsIn n) := ⟨0, by decide, rfl⟩
  have hn : Number (0x0f :: setsIn n) 15 (setsIn n) := digit 15 (by decide) _
  obtain ⟨w, hw⟩ := setsIn_fit env 15 frames n .nothing []
  rw [List.append_nil] at hw
  have hm : MessageIn env frames _ ([0xff, 0x0f] ++ setsIn n) (.obj 0) w :=
    ⟨15, _, _, _, hh, hn, by decide, by decide, hw⟩
  obtain ⟨s, h1, -⟩ := (loadsRoom_iff env frames _ _ _ _).2 hm
  have hl : loads env ([0xff, 0x0f] ++ setsIn n) = .ok (.obj 0, s) := by
    rcases loadsRoom_or env frames _ ([0xff, 0x0f] ++ setsIn n) with h | h
    · rw [← h, h1]
    · rw [h1] at h; cases h
  refine ⟨[0xff, 0x0f] ++ setsIn n, .obj 0, s, by simp [setsIn_length], hl, ?_⟩
  rcases loadsRoom_or env frames room ([0xff, 0x0f] ++ setsIn n) with h | h
  · exfalso
    rw [hl] at h
    obtain ⟨w2, h2, h3⟩ := loads_world hl
    obtain ⟨version, m1, m2, rest, g1, g2, -, -, g5⟩ := (loadsRoom_iff env frames room _ _ w2).1 ⟨s, h, h2, h3⟩
    obtain ⟨-, rfl⟩ := tag_fun g1 hh
    have : m2 = setsIn n := ((RdSpec.functional number_spec) g2 hn).2
    subst this
    exact setsIn_tight env version frames n room hr _ _ [] _ _ (by rw [List.append_nil]; exact g5)
  · exact h

/-! ## dumps -/

theorem dumpsRoom_eq (env : EEnv) (frames : Val → Nat) (room : Nat) (v : Val) :
    dumpsRoom env frames room v = (encodeRoom env frames room v WS.headed).map (·.data) := rfl

theorem dumps_deep {env : EEnv} (ht : WellTyped env) (v : Val) {n : Nat} (hn : env.heap.length + 2 ≤ n) :
    dumps env v = (encodeObject env n v WS.headed).map (·.data) := by
  unfold dumps
  rw [← C14_depth_bound ht v hn]
  rfl

/-- C79: dumps writes or raises the same as with unlimited room, or raises RecursionError. -/
theorem C79_dumps_same_or_raises {env : EEnv} (ht : WellTyped env) (frames : Val → Nat) (room : Nat) (v : Val) :
    dumpsRoom env frames room v = dumps env v ∨ dumpsRoom env frames room v = .error .fuel := by
  by_cases h : encodeRoom env frames room v WS.headed = .error .fuel
  · exact .inr (by rw [dumpsRoom_eq, h]; rfl)
  · refine .inl ?_
    rw [dumpsRoom_eq, dumps_deep ht v (Nat.le_max_right room (env.heap.length + 2)),
      encodeRoom_agree env frames room _ (Nat.le_max_left _ _) v _ h]

/-- C79: it does not raise RecursionError if there is room for the objects and two more. -/
theorem C79_dumps_enough_room {env : EEnv} (ht : WellTyped env) {frames : Val → Nat} {K room : Nat}
    (hK : ∀ v, frames v < K) (hr : K * (env.heap.length + 2) ≤ room) (v : Val) : dumpsRoom env frames room v = dumps env v := by
  rw [dumpsRoom_eq, dumps_deep ht v (Nat.le_refl _),
    agree_encodeRoom env frames K hK _ room hr v WS.headed (C14_terminates ht v (Nat.le_refl _))]

/-! ### Graphs that are too deep -/

/-- A list in a list in a list …: `n` lists and an empty one in the last of them. -/
def listsIn (n : Nat) : Heap := (List.range n).map (fun i => .pylist [.obj (i + 1)]) ++ [.pylist []]

theorem listsIn_at {n i : Nat} (h : i < n) : (listsIn n)[i]? = some (.pylist [.obj (i + 1)]) := by
  unfold listsIn
  rw [List.getElem?_append_left (by simpa using h), List.getElem?_map, List.getElem?_range h]
  rfl

theorem listsIn_last (n : Nat) : (listsIn n)[n]? = some (.pylist []) := by
  unfold listsIn
  rw [List.getElem?_append_right (by simp)]
  simp

theorem refs_fresh {h : Heap} {i : Nat} {next : Val → Wr} {ws : WS} (hc : ws.log.contains (.obj i) = false) :
    refsStep (exampleEnc h) (.obj i) next ws = next (.obj i) ws := by
  unfold refsStep deduplicate dkey exampleEnc
  simp only [Option.map_none, hc]
  rfl

theorem list_enters {h : Heap} {i : Nat} {els : List Val} (hi : h[i]? = some (.pylist els)) {rec : Val → Wr} {ws : WS}
    (ha : ws.allowed = none) (hc : ∀ j, i ≤ j → ws.log.contains (.obj j) = false) :
    ∃ ws1, (refsStep (exampleEnc h) (.obj i) fun v => tagWriter (exampleEnc h) rec v unhandledValue) ws =
        (writeVals rec els ws1).bind (fun ws => do
          let ws ← writeProps rec [] ws
          let ws ← writeTag .kEndDenseJSArray ws
          let ws ← emit (writeVarint 0) ws
          emit (writeVarint els.length) ws) ∧
      ws1.allowed = none ∧ ∀ j, i + 1 ≤ j → ws1.log.contains (.obj j) = false := by
  rw [refs_fresh (hc i (Nat.le_refl _))]
  refine ⟨⟨ws.data ++ [Tag.kBeginDenseJSArray.byte] ++ writeVarint els.length, (ws.log.record (.obj i)).1, none, ws.memo, ws.skew, ws.badRef⟩,
    ?_, rfl, ?_⟩
  · show tagWriter (exampleEnc h) rec (.obj i) unhandledValue ws = _
    unfold tagWriter
    have hh : (exampleEnc h).heap[i]? = some (.pylist els) := hi
    simp only [hh]
    obtain ⟨d, l, a, m, sk, b⟩ := ws
    cases ha
    rfl
  · intro j hj
    exact not_contains_record (hc j (by omega)) (by intro h; cases h; omega)

theorem lists_stop (frames : Val → Nat) (F n : Nat) (hF : ∀ i, frames (.obj i) = F) (k i room : Nat) (hk : i + k = n)
    (hr : room < (F + 1) * (k + 1)) {ws : WS} (ha : ws.allowed = none)
    (hc : ∀ j, i ≤ j → ws.log.contains (.obj j) = false) :
    encodeRoom (exampleEnc (listsIn n)) frames room (.obj i) ws = .error .fuel := by
  induction k generalizing i room ws with
  | zero => rw [encodeRoom_none _ _ (by rw [hF]; omega)]
  | succ k ih =>
    have hm : (F + 1) * (k + 1 + 1) = (F + 1) * (k + 1) + (F + 1) := Nat.mul_succ _ _
    by_cases h : room ≤ F
    · rw [encodeRoom_none _ _ (by rw [hF]; exact h)]
    · rw [encodeRoom_some _ _ (by rw [hF]; exact h)]
      obtain ⟨ws1, h1, h2, h3⟩ := list_enters (rec := encodeRoom (exampleEnc (listsIn n)) frames (room - (frames (.obj i) + 1)))
        (listsIn_at (by omega : i < n)) ha hc
      rw [h1]
      show Except.bind (Except.bind (encodeRoom (exampleEnc (listsIn n)) frames (room - (frames (.obj i) + 1)) (.obj (i + 1)) ws1) _) _ = _
      rw [ih (i + 1) _ (by omega) (by rw [hF]; omega) h2 h3]
      rfl

theorem lists_go (n k i f : Nat) (hk : i + k = n) (hf : k < f) {ws : WS} (ha : ws.allowed = none)
    (hc : ∀ j, i ≤ j → ws.log.contains (.obj j) = false) :
    ∃ ws', encodeObject (exampleEnc (listsIn n)) f (.obj i) ws = .ok ws' ∧ ws'.allowed = none := by
  induction k generalizing i f ws with
  | zero =>
    obtain ⟨f, rfl⟩ : ∃ g, f = g + 1 := ⟨f - 1, by omega⟩
    obtain rfl : i = n := by omega
    rw [encodeObject_succ]
    obtain ⟨ws1, h1, h2, -⟩ := list_enters (rec := encodeObject (exampleEnc (listsIn i)) f) (listsIn_last i) ha hc
    rw [h1]
    obtain ⟨d, l, a, m, sk, b⟩ := ws1
    cases h2
    exact ⟨_, rfl, rfl⟩
  | succ k ih =>
    obtain ⟨f, rfl⟩ : ∃ g, f = g + 1 := ⟨f - 1, by omega⟩
    rw [encodeObject_succ]
    obtain ⟨ws1, h1, h2, h3⟩ := list_enters (rec := encodeObject (exampleEnc (listsIn n)) f) (listsIn_at (by omega : i < n)) ha hc
    obtain ⟨ws2, g1, g2⟩ := ih (i + 1) f (by omega) (by omega) h2 h3
    rw [h1]
    show ∃ ws', Except.bind (Except.bind (encodeObject (exampleEnc (listsIn n)) f (.obj (i + 1)) ws1) _) _ = _ ∧ _
    rw [g1]
    obtain ⟨d, l, a, m, sk, b⟩ := ws2
    cases g2
    exact ⟨_, rfl, rfl⟩

/-- C79: for any room there are lists, nested `n` deep, which dumps would write, but raises RecursionError. -/
theorem C79_dumps_too_deep (frames : Val → Nat) (F : Nat) (hF : ∀ i, frames (.obj i) = F) (n room : Nat)
    (hr : room < (F + 1) * (n + 1)) :
    (∃ bytes, dumps (exampleEnc (listsIn n)) (.obj 0) = .ok bytes) ∧
      dumpsRoom (exampleEnc (listsIn n)) frames room (.obj 0) = .error .fuel := by
  constructor
  · obtain ⟨ws, h, -⟩ := lists_go n n 0 (encodeFuel (exampleEnc (listsIn n))) (by omega)
      (by unfold encodeFuel exampleEnc listsIn; simp; omega) (ws := WS.headed) rfl (fun _ _ => rfl)
    exact ⟨ws.data, by unfold dumps; rw [dumpsState_eq, h]; rfl⟩
  · rw [dumpsRoom_eq, lists_stop frames F n hF n 0 room (by omega) hr rfl (fun _ _ => rfl)]
    rfl

/-! ## Examples -/

/-- Three levels: a Map in a Set, with a string.  Read with room for three, not with room for two. -/
example : result (loadsRoom exampleDec (fun _ => 0) 3 [0xff, 0x0f, 0x27, 0x3b, 0x22, 0, 0x30, 0x3a, 2, 0x2c, 1]) =
      some (.obj 0, [.jsset [.obj 1], .jsmap [(.str [], .null)]], 11) ∧
    loadsRoom exampleDec (fun _ => 0) 2 [0xff, 0x0f, 0x27, 0x3b, 0x22, 0, 0x30, 0x3a, 2, 0x2c, 1] = .error .fuel := by
  decide +kernel

/-- A message with an error in it is rejected for the error if that is met before the room is used up. -/
example : loadsRoom exampleDec (fun _ => 0) 2 [0xff, 0x0f, 0x27, 0x30, 0x7b, 0x3b, 0x22, 0] = .error .unhandledTag ∧
    loadsRoom exampleDec (fun _ => 0) 2 [0xff, 0x0f, 0x27, 0x3b, 0x7b, 0x22, 0] = .error .fuel := by
  decide +kernel

example : (∀ t, (fun t : Tag => if t = .kBeginJSMap then 4 else 5) t < 6) ∧ 6 * 2 ≤ 12 := by
  refine ⟨fun t => ?_, by decide⟩
  show (if t = .kBeginJSMap then 4 else 5) < 6
  split <;> decide

end V8.Props
