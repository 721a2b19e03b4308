import Verif.Proofs.LanguageMain
import Verif.Props.RoundTrip

/-!
# C78: the messages that loads reads are those of a grammar, with the meaning it gives them

`Message` (`Spec/Language`) says which bytes are a message, with relations between the bytes before and behind
each part, and what the message means: the value, all objects with their contents, and what the object numbers
stand for.
-/

namespace V8.Props

open V8.Spec V8.Spec.Lang V8.Lang

/-- C78.  loads returns the value `v`, has made the objects `w.heap` and numbered them as `w.numbered`, if and
only if the grammar derives just that from the bytes. -/
theorem C78_reads_exactly (env : DEnv) (data : Bytes) (v : Val) (w : World) :
    (∃ s, loads env data = .ok (v, s) ∧ s.heap = w.heap ∧ s.log.slots = w.numbered.map .obj) ↔ Message env data v w :=
  loads_iff env data v w

/-- C78: bytes are rejected, with some exception, just if no derivation exists. -/
theorem C78_rejects_exactly (env : DEnv) (data : Bytes) :
    (∃ e, loads env data = .error e) ↔ ¬ ∃ v w, Message env data v w := by
  constructor
  · rintro ⟨e, he⟩ ⟨v, w, hm⟩
    obtain ⟨s, hs, -⟩ := (C78_reads_exactly env data v w).2 hm
    rw [he] at hs
    cases hs
  · intro hn
    cases hl : loads env data with
    | error e => exact ⟨e, rfl⟩
    | ok r =>
      obtain ⟨v, s⟩ := r
      obtain ⟨w, h1, h2⟩ := loads_world hl
      exact absurd ⟨v, w, (C78_reads_exactly env data v w).1 ⟨s, hl, h1, h2⟩⟩ hn

/-- C78: the grammar is unambiguous, though it has several ways to write most values. -/
theorem C78_one_meaning {env : DEnv} {data : Bytes} {v v' : Val} {w w' : World} (h : Message env data v w)
    (h' : Message env data v' w') : v = v' ∧ w = w' := by
  obtain ⟨s, h1, h2, h3⟩ := (C78_reads_exactly env data v w).2 h
  obtain ⟨s', h1', h2', h3'⟩ := (C78_reads_exactly env data v' w').2 h'
  rw [h1] at h1'
  cases h1'
  obtain ⟨n, g⟩ := w
  obtain ⟨n', g'⟩ := w'
  refine ⟨rfl, ?_⟩
  have e1 : g = g' := h2.symm.trans h2'
  have e2 : n = n' := (List.map_inj_right (fun a b hab => by cases hab; rfl)).1 (h3.symm.trans h3')
  rw [e1, e2]

/-- C11 and C78: what dumps writes belongs to the grammar and means the graph it was given, under the conditions of C11
(no BigInt that is too long, no reference after the numberings of the two sides diverged). -/
theorem C11_written_message_partial {env : EEnv} (he : Encodable env) {denv : DEnv} (hpy : denv.py = env.py) {v : Val}
    (hn : NumbersAgree env v) {bytes : Bytes} (h : dumps env v = .ok bytes) :
    ∃ z P r w, Message denv bytes r w ∧ SameGraph env z P v r w.heap := by
  obtain ⟨z, P, r, ds, h1, h2⟩ := C11_round_trip_partial he hpy v hn bytes h
  obtain ⟨w, h3, h4⟩ := loads_world h1
  exact ⟨z, P, r, w, (C78_reads_exactly denv bytes r w).1 ⟨ds, h1, h3, h4⟩, h3 ▸ h2⟩

/-! ## Examples -/

/-- A derivation by hand: `"a"` after two zero bytes, in a message of version 13 whose number takes two bytes. -/
example : Message exampleDec [0xff, 0x8d, 0, 0, 0, 0x22, 1, 97, 0x30] (.str [97]) .nothing := by
  refine ⟨13, [0x8d, 0, 0, 0, 0x22, 1, 97, 0x30], [0, 0, 0x22, 1, 97, 0x30].drop 0, [0x30], 1, ⟨0, by decide, rfl⟩,
    ⟨[0x8d, 0], .more 0x8d [0] 0 (by decide) (.last 0 (by decide)), rfl⟩, by decide, by decide, ?_⟩
  refine ⟨.kOneByteString, [1, 97, 0x30], ⟨2, by decide, rfl⟩, trivial, [97], ?_, rfl, rfl⟩
  exact ⟨[97], ⟨[97, 0x30], ⟨[1], .last 1 (by decide), rfl⟩, rfl, rfl⟩, by decide⟩

/-- The message of a run. -/
theorem message_of {env : DEnv} {data : Bytes} {v : Val} {n : List Val} {h : Heap}
    (hr : (match loads env data with
      | .ok (x, s) => some (x, s.heap, s.log.slots)
      | .error _ => none) = some (v, h, n.map .obj)) : Message env data v ⟨n, h⟩ := by
  cases hl : loads env data with
  | error e => rw [hl] at hr; cases hr
  | ok r =>
    obtain ⟨x, s⟩ := r
    rw [hl] at hr
    simp only [Option.some.injEq, Prod.mk.injEq] at hr
    obtain ⟨rfl, h2, h3⟩ := hr
    exact (C78_reads_exactly env data x ⟨n, h⟩).1 ⟨s, hl, h2, h3⟩

/-- A Set with a wrapped string, the Set itself and the wrapper again, which comes back as a string. -/
example : Message exampleDec [0xff, 0x0f, 0x27, 0x73, 1, 97, 0x5e, 0, 0x5e, 1, 0x2c, 3] (.obj 0)
    ⟨[.obj 0, .str [97]], [.jsset [.str [97], .obj 0], .primObj (.str [97])]⟩ :=
  message_of (by decide +kernel)

/-- A buffer with a view; behind it a second view of the same buffer, by reference. -/
example : Message exampleDec [0xff, 0x0e, 0x27, 0x42, 2, 7, 8, 0x56, 0x42, 0, 2, 0, 0x5e, 1, 0x56, 0x57, 0, 2, 1, 0x2c, 2]
    (.obj 0) ⟨[.obj 0, .obj 1, .obj 2, .obj 3],
      [.jsset [.obj 2, .obj 3], .abuf ⟨[7, 8], 2, false⟩, .view (.obj 1) ⟨.uint8, 0, some 2⟩,
       .view (.obj 1) ⟨.uint16, 0, none⟩]⟩ :=
  message_of (by decide +kernel)

/-- No message: the count at the end of the Set is wrong. -/
example : ¬ ∃ v w, Message exampleDec [0xff, 0x0f, 0x27, 0x30, 0x2c, 2] v w :=
  (C78_rejects_exactly _ _).1 ⟨_, show loads exampleDec [0xff, 0x0f, 0x27, 0x30, 0x2c, 2] = .error .decode by decide +kernel⟩

end V8.Props
