import Verif.Model.Wire
import Verif.Props.Sensors

/-!
# Properties of the contact messages: C142 (serialisation), C143 (which leg an entry is about)
-/
namespace Drift
namespace Wire

theorem getU32_put (x : BitVec 32) (r : Bytes) : getU32 (putU32 x ++ r) = some (x, r) := by
  simp only [putU32, List.cons_append, List.nil_append, getU32]
  congr 2
  apply BitVec.eq_of_getLsbD_eq
  intro i hi
  simp only [BitVec.getLsbD_append, BitVec.getLsbD_extractLsb']
  have : i < 32 := hi
  by_cases h1 : i < 8
  · simp [h1]
  · by_cases h2 : i - 8 < 8
    · have : 8 + (i - 8) = i := by omega
      simp [h1, h2, this]
    · by_cases h3 : i - 8 - 8 < 8
      · have : 16 + (i - 8 - 8) = i := by omega
        simp [h1, h2, h3, this]
      · have h4 : i - 8 - 8 - 8 < 8 := by omega
        have : 24 + (i - 8 - 8 - 8) = i := by omega
        simp [h1, h2, h3, h4, this]

theorem putU32_get {s r : Bytes} {x : BitVec 32} (h : getU32 s = some (x, r)) : s = putU32 x ++ r := by
  match s with
  | a :: b :: c :: d :: t =>
    simp only [getU32, Option.some.injEq, Prod.mk.injEq] at h
    obtain ⟨rfl, rfl⟩ := h
    have e : ∀ k (y : Byte), (∀ i < 8, (d ++ c ++ b ++ a : BitVec 32).getLsbD (k + i) = y.getLsbD i) →
        (d ++ c ++ b ++ a : BitVec 32).extractLsb' k 8 = y := by
      intro k y hy
      apply BitVec.eq_of_getLsbD_eq
      intro i hi
      rw [BitVec.getLsbD_extractLsb', hy i hi]
      simp [hi]
    simp only [putU32, List.cons_append, List.nil_append]
    rw [e 0 a, e 8 b, e 16 c, e 24 d]
    · intro i hi
      simp only [BitVec.getLsbD_append]
      have h1 : ¬ 24 + i < 8 := by omega
      have h2 : ¬ 24 + i - 8 < 8 := by omega
      have h3 : ¬ 24 + i - 8 - 8 < 8 := by omega
      have h4 : 24 + i - 8 - 8 - 8 = i := by omega
      simp [h1, h2, h3, h4]
    · intro i hi
      simp only [BitVec.getLsbD_append]
      have h1 : ¬ 16 + i < 8 := by omega
      have h2 : ¬ 16 + i - 8 < 8 := by omega
      have h4 : 16 + i - 8 - 8 = i := by omega
      simp [h1, h2, h4, hi]
    · intro i hi
      simp only [BitVec.getLsbD_append]
      have h1 : ¬ 8 + i < 8 := by omega
      have h4 : 8 + i - 8 = i := by omega
      simp [h1, h4, hi]
    · intro i hi
      simp only [BitVec.getLsbD_append]
      simp [hi]
  | [] => simp [getU32] at h
  | [_] => simp [getU32] at h
  | [_, _] => simp [getU32] at h
  | [_, _, _] => simp [getU32] at h

theorem putU32_length (x : BitVec 32) : (putU32 x).length = 4 := rfl

theorem getString_put {f : Bytes} (h : f.length < 2 ^ 32) (r : Bytes) : getString (putString f ++ r) = some (f, r) := by
  unfold getString putString
  rw [List.append_assoc, getU32_put, Option.bind_some]
  have : (BitVec.ofNat 32 f.length).toNat = f.length := by rw [BitVec.toNat_ofNat, Nat.mod_eq_of_lt h]
  simp only [this, getN]
  rw [if_pos (by simp)]
  simp

theorem putString_get {s r f : Bytes} (h : getString s = some (f, r)) : s = putString f ++ r ∧ f.length < 2 ^ 32 := by
  unfold getString at h
  obtain ⟨⟨x, t⟩, h1, h2⟩ := Option.bind_eq_some_iff.1 h
  have := putU32_get h1
  simp only [getN] at h2
  split_ifs at h2 with hl
  simp only [Option.some.injEq, Prod.mk.injEq] at h2
  obtain ⟨rfl, rfl⟩ := h2
  have hx : (t.take x.toNat).length = x.toNat := by simp [hl]
  refine ⟨?_, by rw [hx]; exact x.isLt⟩
  unfold putString
  rw [hx, BitVec.ofNat_toNat, BitVec.setWidth_eq, List.append_assoc, List.take_append_drop]
  exact this

theorem getContact_put (c : Contact) (r : Bytes) : getContact (putContact c ++ r) = some (c, r) := by
  unfold getContact putContact
  rw [List.append_assoc, getU32_put]
  rfl

theorem putContact_get {s r : Bytes} {c : Contact} (h : getContact s = some (c, r)) : s = putContact c ++ r := by
  unfold getContact at h
  obtain ⟨⟨x, t⟩, h1, h2⟩ := Option.bind_eq_some_iff.1 h
  obtain ⟨⟨y, u⟩, h3, h4⟩ := Option.bind_eq_some_iff.1 h2
  simp only [Option.some.injEq, Prod.mk.injEq] at h4
  obtain ⟨rfl, rfl⟩ := h4
  match t with
  | [] => simp [getU8] at h3
  | a :: t' =>
    simp only [getU8, Option.some.injEq, Prod.mk.injEq] at h3
    obtain ⟨rfl, rfl⟩ := h3
    rw [putU32_get h1]
    simp [putContact]

theorem getHeader_put {m : Header} (h : m.frame.length < 2 ^ 32) (r : Bytes) : getHeader (putHeader m ++ r) = some (m, r) := by
  unfold getHeader putHeader
  simp only [List.append_assoc, getU32_put, Option.bind_some]
  rw [getString_put h]
  rfl

theorem putHeader_get {s r : Bytes} {m : Header} (h : getHeader s = some (m, r)) :
    s = putHeader m ++ r ∧ m.frame.length < 2 ^ 32 := by
  unfold getHeader at h
  obtain ⟨⟨a, t1⟩, h1, h⟩ := Option.bind_eq_some_iff.1 h
  obtain ⟨⟨b, t2⟩, h2, h⟩ := Option.bind_eq_some_iff.1 h
  obtain ⟨⟨c, t3⟩, h3, h⟩ := Option.bind_eq_some_iff.1 h
  obtain ⟨⟨f, t4⟩, h4, h⟩ := Option.bind_eq_some_iff.1 h
  simp only [Option.some.injEq, Prod.mk.injEq] at h
  obtain ⟨rfl, rfl⟩ := h
  obtain ⟨h5, h6⟩ := putString_get h4
  refine ⟨?_, h6⟩
  simp only at h2 h3 h4 h5
  rw [putU32_get h1, putU32_get h2, putU32_get h3, h5]
  simp [putHeader, List.append_assoc]

theorem getMany_put (l : List Contact) (r : Bytes) : getMany l.length (l.flatMap putContact ++ r) = some (l, r) := by
  induction l with
  | nil => rfl
  | cons c l ih =>
    simp only [List.flatMap_cons, List.length_cons, getMany, List.append_assoc, getContact_put, Option.bind_some, ih]

theorem putMany_get {n : ℕ} {s r : Bytes} {l : List Contact} (h : getMany n s = some (l, r)) :
    s = l.flatMap putContact ++ r ∧ l.length = n := by
  induction n generalizing s l with
  | zero =>
    simp only [getMany, Option.some.injEq, Prod.mk.injEq] at h
    obtain ⟨rfl, rfl⟩ := h
    exact ⟨rfl, rfl⟩
  | succ n ih =>
    unfold getMany at h
    obtain ⟨⟨c, t⟩, h1, h⟩ := Option.bind_eq_some_iff.1 h
    obtain ⟨⟨l', u⟩, h2, h⟩ := Option.bind_eq_some_iff.1 h
    simp only [Option.some.injEq, Prod.mk.injEq] at h
    obtain ⟨rfl, rfl⟩ := h
    obtain ⟨h3, h4⟩ := ih h2
    simp only at h3
    refine ⟨?_, by simp [h4]⟩
    rw [putContact_get h1, h3]
    simp [List.append_assoc]

theorem getContacts_put {l : List Contact} (h : l.length < 2 ^ 32) (r : Bytes) :
    getContacts (putContacts l ++ r) = some (l, r) := by
  unfold getContacts putContacts
  rw [List.append_assoc, getU32_put, Option.bind_some]
  have : (BitVec.ofNat 32 l.length).toNat = l.length := by rw [BitVec.toNat_ofNat, Nat.mod_eq_of_lt h]
  simp only [this, getMany_put]

theorem putContacts_get {s r : Bytes} {l : List Contact} (h : getContacts s = some (l, r)) :
    s = putContacts l ++ r ∧ l.length < 2 ^ 32 := by
  unfold getContacts at h
  obtain ⟨⟨x, t⟩, h1, h2⟩ := Option.bind_eq_some_iff.1 h
  obtain ⟨h3, h4⟩ := putMany_get h2
  simp only at h3 h4
  refine ⟨?_, h4 ▸ x.isLt⟩
  unfold putContacts
  rw [h4, BitVec.ofNat_toNat, BitVec.setWidth_eq, List.append_assoc, ← h3]
  exact putU32_get h1

theorem getArray_put {m : ContactArray} (h1 : m.header.frame.length < 2 ^ 32) (h2 : m.contacts.length < 2 ^ 32) (r : Bytes) :
    getArray (putArray m ++ r) = some (m, r) := by
  unfold getArray putArray
  rw [List.append_assoc, getHeader_put h1, Option.bind_some]
  simp only [getContacts_put h2, Option.bind_some]

theorem putArray_get {s r : Bytes} {m : ContactArray} (h : getArray s = some (m, r)) :
    s = putArray m ++ r ∧ m.header.frame.length < 2 ^ 32 ∧ m.contacts.length < 2 ^ 32 := by
  unfold getArray at h
  obtain ⟨⟨a, t1⟩, h1, h⟩ := Option.bind_eq_some_iff.1 h
  obtain ⟨⟨b, t2⟩, h2, h⟩ := Option.bind_eq_some_iff.1 h
  simp only [Option.some.injEq, Prod.mk.injEq] at h
  obtain ⟨rfl, rfl⟩ := h
  obtain ⟨e1, e2⟩ := putHeader_get h1
  obtain ⟨e3, e4⟩ := putContacts_get h2
  simp only at e3
  exact ⟨by rw [e1, e3]; simp [putArray, List.append_assoc], e2, e4⟩

theorem putContact_length (c : Contact) : (putContact c).length = 5 := rfl

theorem putArray_length (m : ContactArray) : (putArray m).length = 20 + m.header.frame.length + 5 * m.contacts.length := by
  have : ∀ l : List Contact, (l.flatMap putContact).length = 5 * l.length := by
    intro l
    induction l with
    | nil => rfl
    | cons c l ih => simp only [List.flatMap_cons, List.length_append, putContact_length, ih, List.length_cons]; omega
  simp only [putArray, putHeader, putString, putContacts, List.length_append, putU32_length, this]
  omega

/-- **C142 (size)** A contact array is sent exactly if its 20 + (length of the frame name) + 5 · (number of entries) bytes and
their four-byte length fit into a buffer of less than 2³² bytes; it is then that many bytes on the wire. -/
theorem C142_size (m : ContactArray) :
    ((∃ b, serialize m = some b) ↔ 24 + m.header.frame.length + 5 * m.contacts.length < 2 ^ 32) ∧
    ∀ b, serialize m = some b → b.length = 24 + m.header.frame.length + 5 * m.contacts.length := by
  unfold serialize
  rw [putArray_length]
  constructor
  · constructor
    · rintro ⟨b, hb⟩
      split_ifs at hb with h
      omega
    · intro h
      rw [if_pos (by omega)]
      exact ⟨_, rfl⟩
  · intro b hb
    split_ifs at hb with h
    obtain rfl := Option.some.inj hb
    rw [List.length_append, putU32_length, putArray_length]
    omega

/-- **C142** Every contact array that is sent is received unchanged, whatever follows it on the connection. -/
theorem C142_round_trip (m : ContactArray) (b : Bytes) (h : serialize m = some b) (r : Bytes) :
    receive (b ++ r) = some (m, r) := by
  unfold serialize at h
  split_ifs at h with hl
  obtain rfl := Option.some.inj h
  have hL := putArray_length m
  have hn : (BitVec.ofNat 32 (putArray m).length).toNat = (putArray m).length := by
    rw [BitVec.toNat_ofNat, Nat.mod_eq_of_lt (by omega)]
  unfold receive
  rw [List.append_assoc, getU32_put, Option.bind_some]
  simp only [hn, getN]
  rw [if_pos (by simp)]
  have h1 := getArray_put (m := m) (by omega) (by omega) []
  rw [List.append_nil] at h1
  simp [h1]

/-- **C142 (stream)** Any sequence of contact arrays sent over a connection is received as that sequence. -/
theorem C142_stream (ms : List ContactArray) (bs : List Bytes) (h : List.Forall₂ (fun m b => serialize m = some b) ms bs)
    (r : Bytes) :
    ∃ ss : ℕ → Bytes, ss 0 = bs.flatten ++ r ∧ ss ms.length = r ∧
      ∀ (k : ℕ) (hk : k < ms.length), receive (ss k) = some (ms[k], ss (k + 1)) := by
  induction h with
  | nil => exact ⟨fun _ => r, rfl, rfl, fun k hk => absurd hk (by simp)⟩
  | @cons m b ms bs h1 _ ih =>
    obtain ⟨ss, h2, h3, h4⟩ := ih
    refine ⟨fun k => match k with | 0 => (b :: bs).flatten ++ r | k + 1 => ss k, rfl, h3, ?_⟩
    intro k hk
    match k with
    | 0 =>
      simp only [List.flatten_cons, List.append_assoc, List.getElem_cons_zero, h2]
      exact C142_round_trip m b h1 _
    | k + 1 => exact h4 k (by simpa using hk)

/-- **C142 (cut)** A message that is cut off is never taken for a message. -/
theorem C142_cut (m : ContactArray) (b : Bytes) (h : serialize m = some b) (p q : Bytes) (hb : b = p ++ q) (hq : q ≠ []) :
    receive p = none := by
  unfold serialize at h
  split_ifs at h with hl
  have e := Option.some.inj h
  cases hp : getU32 p with
  | none => unfold receive; rw [hp]; rfl
  | some x =>
    obtain ⟨n, t⟩ := x
    have h1 := putU32_get hp
    rw [hb, h1, List.append_assoc] at e
    have hlen : (putU32 (BitVec.ofNat 32 (putArray m).length)).length = (putU32 n).length := rfl
    obtain ⟨e1, e2⟩ := List.append_inj e hlen
    have hn : n = BitVec.ofNat 32 (putArray m).length := by
      have a1 := getU32_put n []
      have a2 := getU32_put (BitVec.ofNat 32 (putArray m).length) []
      rw [e1, a1] at a2
      simpa using a2
    have hL : n.toNat = (putArray m).length := by rw [hn, BitVec.toNat_ofNat, Nat.mod_eq_of_lt (by omega)]
    unfold receive
    rw [hp, Option.bind_some]
    simp only [getN, hL, e2, List.length_append]
    rw [if_neg]
    · rfl
    · have : q.length ≠ 0 := by simpa using hq
      omega

/-- **C142 (no confusion)** What is received determines the bytes: the message read from a stream, sent again, gives the bytes
that were read, if the announced length is the length of the message. -/
theorem C142_unique (s r : Bytes) (m : ContactArray) (h : receive s = some (m, r)) :
    ∃ u, s = putU32 (BitVec.ofNat 32 (putArray m ++ u).length) ++ (putArray m ++ u) ++ r ∧
      (u = [] → 24 + m.header.frame.length + 5 * m.contacts.length < 2 ^ 32 → ∃ b, serialize m = some b ∧ s = b ++ r) := by
  unfold receive at h
  obtain ⟨⟨n, t⟩, h1, h⟩ := Option.bind_eq_some_iff.1 h
  obtain ⟨⟨c, d⟩, h2, h⟩ := Option.bind_eq_some_iff.1 h
  obtain ⟨⟨m', u⟩, h3, h⟩ := Option.bind_eq_some_iff.1 h
  simp only [Option.some.injEq, Prod.mk.injEq] at h
  obtain ⟨rfl, rfl⟩ := h
  simp only at h2 h3
  unfold getN at h2
  split_ifs at h2 with hl
  simp only [Option.some.injEq, Prod.mk.injEq] at h2
  obtain ⟨hc, hd⟩ := h2
  obtain ⟨e1, -, -⟩ := putArray_get h3
  have hcl : c.length = n.toNat := by rw [← hc]; simp [hl]
  have key : s = putU32 (BitVec.ofNat 32 (putArray m' ++ u).length) ++ (putArray m' ++ u) ++ d := by
    rw [← e1, hcl, BitVec.ofNat_toNat, BitVec.setWidth_eq, List.append_assoc, ← hc, ← hd, List.take_append_drop]
    exact putU32_get h1
  refine ⟨u, key, ?_⟩
  rintro rfl hsz
  refine ⟨_, if_pos (by rw [putArray_length]; omega), ?_⟩
  rw [List.append_nil] at key
  exact key

/-- four entries; the frame is called "b" -/
def exArray (ids : Fin 4 → BitVec 32) (ct : Fin 4 → Byte) : ContactArray :=
  ⟨⟨7, 5, 500000000, [98]⟩, [⟨ids 0, ct 0⟩, ⟨ids 1, ct 1⟩, ⟨ids 2, ct 2⟩, ⟨ids 3, ct 3⟩]⟩

/-- a message with four entries is sent in 45 bytes -/
example : ∃ b, serialize (exArray ![0, 1, 2, 3] ![1, 0, 0, 1]) = some b ∧ b.length = 45 := by
  obtain ⟨h1, h2⟩ := C142_size (exArray ![0, 1, 2, 3] ![1, 0, 0, 1])
  obtain ⟨b, hb⟩ := h1.2 (by norm_num [exArray])
  exact ⟨b, hb, by rw [h2 b hb]; rfl⟩

/-- the first twelve bytes of that message: length 41, sequence number 7, five seconds -/
example : (putU32 41 ++ putArray (exArray ![0, 1, 2, 3] ![1, 0, 0, 1])).take 12 = [41, 0, 0, 0, 7, 0, 0, 0, 5, 0, 0, 0] := by
  decide

/-! ### C143 -/

/-- what the entries of a contact array say about the legs when they are read by their identifiers: leg `j` is in contact if
the entry with the identifier `j` says so -/
def ById (m : ContactArray) (ct : Fin 4 → Bool) : Prop :=
  ∀ j : Fin 4, ∃ c ∈ m.contacts, c.id = BitVec.ofNat 32 j.val ∧ (ct j = true ↔ c.indicator ≠ 0)

/-- the entries name the four legs, each once -/
def NamesLegs (m : ContactArray) : Prop := (m.contacts.map Contact.id).Perm [0, 1, 2, 3]

/-- **C143 is false**: the callback goes by the position in the array and ignores the identifiers.  For this message, whose
entries name the four legs in another order, the measurement says that the front right leg is in contact and the hind left leg
is not, and the message says the opposite. -/
theorem C143_ids_false : ∃ (m : ContactArray) (e : JointMsg) (k : KinMeas), NamesLegs m ∧
    Ros.kinCb (toMsg m) e = some k ∧ k.contacts 0 = true ∧ k.contacts 3 = false ∧
    (∀ c ∈ m.contacts, c.id = 0 → c.indicator = 0) ∧ (∀ c ∈ m.contacts, c.id = 3 → c.indicator = 1) ∧
    ¬ ById m k.contacts := by
  have hk : Ros.kinCb (toMsg (exArray ![3, 2, 1, 0] ![1, 0, 0, 0])) ⟨⟨5, 0⟩, List.replicate 12 0, List.replicate 12 0⟩ =
      some ⟨(⟨5, 500000000⟩ : Stamp).toSec, ![true, false, false, false], 0, 0⟩ := by
    have e1 : Ros.readN (toMsg (exArray ![3, 2, 1, 0] ![1, 0, 0, 0])).contacts 4 = some ![true, false, false, false] := by
      refine ((readN_spec _ _).1 _).2 fun j => ?_
      fin_cases j <;> rfl
    have e2 : Ros.readN (List.replicate 12 (0 : ℝ)) 12 = some 0 := by
      refine ((readN_spec _ _).1 _).2 fun j => ?_
      rw [List.getElem?_replicate, if_pos j.isLt]; rfl
    unfold Ros.kinCb
    simp only [e1, e2, Option.bind_eq_bind, Option.bind_some]
    rfl
  refine ⟨_, _, _, ?_, hk, rfl, rfl, ?_, ?_, ?_⟩
  · unfold NamesLegs exArray
    decide
  · unfold exArray
    decide
  · unfold exArray
    decide
  · intro h
    obtain ⟨c, hc, h1, h2⟩ := h 0
    have : c.indicator ≠ 0 := h2.1 rfl
    revert c
    unfold exArray
    decide

/-- **C143 (partial)** The measurement attributes every entry to the leg it names if the first four entries are those of the
legs 0, 1, 2, 3 in that order; a contact is any indicator different from zero. -/
theorem C143_ordered_partial (m : ContactArray) (e : JointMsg) (k : KinMeas) (hk : Ros.kinCb (toMsg m) e = some k)
    (ho : ∀ j : Fin 4, ∃ c, m.contacts[j.val]? = some c ∧ c.id = BitVec.ofNat 32 j.val) : ById m k.contacts := by
  intro j
  obtain ⟨c, hc, hid⟩ := ho j
  refine ⟨c, List.mem_of_getElem? hc, hid, ?_⟩
  have h4 : Ros.readN (toMsg m).contacts 4 = some k.contacts := by
    unfold Ros.kinCb at hk
    simp only [Option.bind_eq_bind] at hk
    obtain ⟨ct, h1, hk⟩ := Option.bind_eq_some_iff.1 hk
    obtain ⟨q, h2, hk⟩ := Option.bind_eq_some_iff.1 hk
    obtain ⟨dq, h3, hk⟩ := Option.bind_eq_some_iff.1 hk
    obtain rfl := Option.some.inj hk
    exact h1
  have h5 := ((readN_spec _ _).1 _).1 h4 j
  simp only [toMsg, List.getElem?_map, hc, Option.map_some, Option.some.injEq] at h5
  rw [← h5]
  simp

/-- **C143 (partial), exact condition** For a message whose entries name the four legs, each once, the measurement attributes
every entry to the leg it names exactly if the entry at position `j` has the indicator (zero or not) of the entry with the
identifier `j`, for each of the four legs. -/
theorem C143_exact_partial (m : ContactArray) (hm : NamesLegs m) (e : JointMsg) (k : KinMeas)
    (hk : Ros.kinCb (toMsg m) e = some k) :
    ById m k.contacts ↔ ∀ j : Fin 4, ∀ c ∈ m.contacts, c.id = BitVec.ofNat 32 j.val →
      ∀ c', m.contacts[j.val]? = some c' → (c'.indicator = 0 ↔ c.indicator = 0) := by
  have h4 : Ros.readN (toMsg m).contacts 4 = some k.contacts := by
    unfold Ros.kinCb at hk
    simp only [Option.bind_eq_bind] at hk
    obtain ⟨ct, h1, hk⟩ := Option.bind_eq_some_iff.1 hk
    obtain ⟨q, h2, hk⟩ := Option.bind_eq_some_iff.1 hk
    obtain ⟨dq, h3, hk⟩ := Option.bind_eq_some_iff.1 hk
    obtain rfl := Option.some.inj hk
    exact h1
  have hpos : ∀ j : Fin 4, ∀ c', m.contacts[j.val]? = some c' → (k.contacts j = true ↔ c'.indicator ≠ 0) := by
    intro j c' hc'
    have h5 := ((readN_spec _ _).1 _).1 h4 j
    simp only [toMsg, List.getElem?_map, hc', Option.map_some, Option.some.injEq] at h5
    rw [← h5]
    simp
  have hlen : m.contacts.length = 4 := by simpa using hm.length_eq
  have hnd : (m.contacts.map Contact.id).Nodup := hm.nodup_iff.2 (by decide)
  have huniq : ∀ c ∈ m.contacts, ∀ d ∈ m.contacts, c.id = d.id → c = d := by
    intro c hc d hd he
    exact List.inj_on_of_nodup_map hnd hc hd he
  constructor
  · intro h j c hc hid c' hc'
    obtain ⟨d, hd, hid', h6⟩ := h j
    have := huniq c hc d hd (hid.trans hid'.symm)
    subst this
    exact not_iff_not.1 ((hpos j c' hc').symm.trans h6)
  · intro h j
    have hj : (BitVec.ofNat 32 j.val) ∈ m.contacts.map Contact.id := by
      rw [hm.mem_iff]
      fin_cases j <;> decide
    obtain ⟨c, hc, hid⟩ := List.mem_map.1 hj
    obtain ⟨c', hc'⟩ : ∃ c', m.contacts[j.val]? = some c' :=
      ⟨m.contacts[j.val], List.getElem?_eq_getElem (by rw [hlen]; exact j.isLt)⟩
    exact ⟨c, hc, hid, (hpos j c' hc').trans (not_congr (h j c hc hid c' hc'))⟩

/-- a message in the order of the legs meets the hypotheses -/
example : NamesLegs (exArray ![0, 1, 2, 3] ![1, 0, 0, 1]) ∧
    ∀ j : Fin 4, ∃ c, (exArray ![0, 1, 2, 3] ![1, 0, 0, 1]).contacts[j.val]? = some c ∧ c.id = BitVec.ofNat 32 j.val := by
  refine ⟨by unfold NamesLegs exArray; decide, fun j => ?_⟩
  fin_cases j
  · exact ⟨⟨0, 1⟩, rfl, rfl⟩
  · exact ⟨⟨1, 0⟩, rfl, rfl⟩
  · exact ⟨⟨2, 0⟩, rfl, rfl⟩
  · exact ⟨⟨3, 1⟩, rfl, rfl⟩

end Wire
end Drift
