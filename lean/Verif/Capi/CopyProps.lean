import Verif.Capi.Copy

/-! # Properties of the buffers of the C interface (C78) -/

namespace Ecal.Capi

theorem toInt_small (n : Nat) (h : n < 2147483648) : toInt n = n := by
  unfold toInt
  have : (n + 2147483648) % 4294967296 = n + 2147483648 := Nat.mod_eq_of_lt (by omega)
  rw [this]
  omega

/-- Every value stays in the range of a C `int`. -/
theorem toInt_neg (n : Nat) (h1 : 2147483648 ≤ n) (h2 : n < 4294967296) : toInt n = (n : Int) - 4294967296 := by
  unfold toInt
  omega

theorem toInt_wrap : toInt 4294967296 = 0 := by
  unfold toInt
  omega

/-- C78 (partial: the length given is that of the buffer and not 0, the message is not empty and shorter than
2 GB): a message that fits is copied to the front of the buffer, the rest of the buffer stays, and its length is
returned; of a message that does not fit nothing is copied and 0 is returned.  No other memory is written. -/
theorem C78_copy_partial (malloc : Bool) (buf msg : List UInt8) (hb : buf ≠ []) (hm : msg ≠ [])
    (hs : msg.length < 2147483648) :
    copyBuffer malloc (.bytes buf) buf.length msg =
      if msg.length ≤ buf.length then .ret msg.length (.bytes (msg ++ buf.drop msg.length)) else .ret 0 (.bytes buf) := by
  have hl : (buf.length : Int) ≠ allocate4me := by
    have := List.length_pos_iff.2 hb
    unfold allocate4me
    omega
  unfold copyBuffer
  rw [toInt_small _ hs]
  by_cases h : msg.length ≤ buf.length
  · have h1 : ¬ (buf.length : Int) < msg.length := by omega
    have h2 : ¬ buf.length < msg.length := by omega
    simp only [copyAs, fill, copyInto, placed, hm, hl, h, h1, h2, if_false, if_true, reduceCtorEq]
  · have h1 : (buf.length : Int) < msg.length := by omega
    simp only [copyAs, fill, hm, hl, h, h1, if_false, if_true, reduceCtorEq]

example : copyBuffer true (.bytes [9, 9, 9]) 3 [1, 2] = .ret 2 (.bytes [1, 2, 9]) := by decide +kernel
example : copyBuffer true (.bytes [9, 9, 9]) 3 [1, 2, 3, 4] = .ret 0 (.bytes [9, 9, 9]) := by decide +kernel

/-- C78 (partial: the message is not empty and shorter than 2 GB): when the library allocates the memory the caller
gets a block with exactly the message, or nothing if there is no memory. -/
theorem C78_alloc_partial (malloc : Bool) (old : Option (List UInt8)) (msg : List UInt8) (hm : msg ≠ [])
    (hs : msg.length < 2147483648) :
    receiveAlloc malloc (some msg) (.slot old) =
      if malloc then .ret msg.length (.slot (some msg)) else .ret 0 (.slot old) := by
  have hp := List.length_pos_iff.2 hm
  have hz : ¬ ((msg.length : Int) = allocate4me) := by unfold allocate4me; omega
  have h2 : (0 : Int) < msg.length := by omega
  simp only [receiveAlloc, copyBuffer]
  rw [toInt_small _ hs]
  cases malloc <;> simp [copyAs, handOut, copyInto, store, hm, hz, h2]

example : receiveAlloc true (some [1, 2, 3]) (.slot none) = .ret 3 (.slot (some [1, 2, 3])) := by decide +kernel

/-- C78 (partial: not empty, shorter than 2 GB): the text functions return the text completely or 0. -/
theorem C78_text_partial (malloc : Bool) (buf text : List UInt8) (hb : buf ≠ []) (hm : text ≠ [])
    (hs : text.length < 2147483648) :
    getText malloc text (.bytes buf) buf.length =
      if text.length ≤ buf.length then .ret text.length (.bytes (text ++ buf.drop text.length)) else .ret 0 (.bytes buf) := by
  have hp := List.length_pos_iff.2 hm
  have h0 : ¬ (0 : Int) = (text.length : Int) := by omega
  unfold getText
  rw [C78_copy_partial malloc buf text hb hm hs, toInt_small _ hs]
  by_cases h : text.length ≤ buf.length
  · rw [if_pos h]; simp
  · rw [if_neg h]; simp [h0]

/-- C78: nothing is ever written through a null pointer, and no message means 0 and no change. -/
theorem C78_nothing (malloc : Bool) (t : Target) (len : Int) (msg : List UInt8) :
    copyBuffer malloc .null len msg = .ret 0 .null ∧ receiveToBuffer malloc none t len = .ret 0 t ∧
    receiveAlloc malloc none t = .ret 0 t ∧ receiveBufferAlloc malloc none t = (.ret 0 t, none) := by
  refine ⟨?_, rfl, rfl, rfl⟩
  simp [copyBuffer, copyAs]

/-- C78 is violated: a buffer of length 0 is taken for a pointer variable; 8 bytes are written into nothing. -/
theorem C78_violated_zero_length (msg : List UInt8) (hm : msg ≠ []) (hs : msg.length < 2147483648) :
    receiveToBuffer true (some msg) (.bytes []) 0 = .overflow := by
  have hp := List.length_pos_iff.2 hm
  have hz : ¬ ((msg.length : Int) = allocate4me) := by unfold allocate4me; omega
  have h2 : (0 : Int) < msg.length := by omega
  simp only [receiveToBuffer, copyBuffer]
  rw [toInt_small _ hs]
  have hz' : ¬ ((msg.length : Int) = 0) := hz
  simp only [copyAs, handOut, copyInto, store, hm, hz', h2, allocate4me, if_false, if_true, reduceCtorEq]
  simp

/-- C78 is violated: a message of 2 GB or more (below 4 GB) is copied into any smaller buffer. -/
theorem C78_violated_big (malloc : Bool) (buf msg : List UInt8) (hb : buf ≠ []) (h1 : 2147483648 ≤ msg.length)
    (h2 : msg.length < 4294967296) (hlt : buf.length < msg.length) :
    receiveToBuffer malloc (some msg) (.bytes buf) buf.length = .overflow := by
  have hm : msg ≠ [] := by intro e; subst e; simp at h1
  have hl : ¬ ((buf.length : Int) = allocate4me) := by
    have := List.length_pos_iff.2 hb
    unfold allocate4me
    omega
  have ht := toInt_neg msg.length h1 h2
  have hn : ¬ ((buf.length : Int) < (msg.length : Int) - 4294967296) := by omega
  simp only [receiveToBuffer, copyBuffer]
  rw [ht]
  simp only [copyAs, fill, copyInto, placed, hm, hl, hn, hlt, if_false, if_true, reduceCtorEq]

theorem message_of (n : Nat) : ∃ msg : List UInt8, msg.length = n := ⟨List.replicate n 0, List.length_replicate⟩

/-- The hypotheses are met, for instance by a buffer of ten bytes. -/
example : ∃ msg : List UInt8, 2147483648 ≤ msg.length ∧ msg.length < 4294967296 ∧ 10 < msg.length := by
  obtain ⟨msg, h⟩ := message_of 2147483648
  exact ⟨msg, by omega, by omega, by omega⟩

/-- C78 is violated: a message of exactly 4 GB makes the function that allocates call itself for ever. -/
theorem C78_violated_endless (msg : List UInt8) (h : msg.length = 4294967296) (old : Option (List UInt8)) :
    receiveAlloc true (some msg) (.slot old) = .endless := by
  have hm : msg ≠ [] := by intro e; subst e; simp at h
  have hz : toInt msg.length = allocate4me := by rw [h]; exact toInt_wrap
  simp only [receiveAlloc, copyBuffer]
  rw [hz]
  simp [copyAs, hm]

example : ∃ msg : List UInt8, msg.length = 4294967296 := message_of _

/-- C78 is violated: an empty message looks like no message. -/
theorem C78_violated_empty (malloc : Bool) (t : Target) (len : Int) :
    receiveToBuffer malloc (some []) t len = receiveToBuffer malloc none t len ∧
    receiveAlloc malloc (some []) t = receiveAlloc malloc none t := by
  simp only [receiveToBuffer, receiveAlloc, copyBuffer]
  constructor <;> simp [copyAs]

/-- C78 is violated: the function made for empty messages reports success for an empty message and leaves the
caller's pointer as it was; whatever it pointed to is released (a second time) by the caller. -/
theorem C78_violated_dangling (malloc : Bool) (old : Option (List UInt8)) :
    receiveBufferAlloc malloc (some []) (.slot old) = (.ret 1 (.slot old), some 0) := by
  have h : toInt 0 = 0 := toInt_small 0 (by decide)
  simp only [receiveBufferAlloc, copyBuffer, List.length_nil]
  rw [h]
  simp [copyAs, Out.withValue]

/-- C78 is violated: so it does when there is no memory, with the length of the message. -/
theorem C78_violated_no_memory : receiveBufferAlloc false (some [1, 2, 3]) (.slot none) = (.ret 1 (.slot none), some 3) := by
  decide +kernel

/-- C78 is violated: a message that does not fit is lost, and the caller is told that there was none. -/
theorem C78_violated_lost :
    Sub.receive true { msg := some [1, 2, 3] } (.bytes [0, 0]) 2 = (.ret 0 (.bytes [0, 0]), {}) ∧
    Sub.receive true {} (.bytes [0, 0]) 2 = (.ret 0 (.bytes [0, 0]), {}) := by decide +kernel

/-- C78 (partial: the first server has executed the call, its response is not empty and shorter than 2 GB): a call
through the C interface gives the response of the first server. -/
theorem C78_call_partial (malloc : Bool) (r : Response) (rs : List Response) (buf : List UInt8) (hb : buf ≠ [])
    (he : r.executed = true) (hd : r.data ≠ []) (hs : r.data.length < 2147483648) (hf : r.data.length ≤ buf.length) :
    callWait malloc (r :: rs) (.bytes buf) buf.length =
      (.ret r.data.length (.bytes (r.data ++ buf.drop r.data.length)), some (true, r.retState)) := by
  have := C78_copy_partial malloc buf r.data hb hd hs
  rw [if_pos hf] at this
  simp [callWait, he, this]

example : callWait true [⟨true, 0, [5]⟩, ⟨false, 0, []⟩] (.bytes [0, 0]) 2 = (.ret 1 (.bytes [5, 0]), some (true, 0)) := by
  decide +kernel

/-- C78 is violated: when the first server does not answer but the second does, the caller gets neither the
response nor the news that a server has answered. -/
theorem C78_violated_second_server :
    callWait true [⟨false, 0, []⟩, ⟨true, 0, [5]⟩] (.bytes [0, 0]) 2 = (.ret 0 (.bytes [0, 0]), some (false, 0)) := by
  decide +kernel

/-- C78 is violated: a successful call with an empty response returns what a failed call returns. -/
theorem C78_violated_empty_response :
    (callWait true [⟨true, 0, []⟩] (.bytes [0, 0]) 2).1 = (callWait true [⟨false, 0, []⟩] (.bytes [0, 0]) 2).1 := by
  decide +kernel

/-- C78 (partial: the number is that of the array): the identifiers given are set. -/
theorem C78_ids_partial (ids : List Int) : setId (some ids) ids.length = some ids := by
  unfold setId
  have h : ¬ ((ids.length : Int) < 0) := by omega
  simp [h]

/-- C78 is violated: a negative number of identifiers makes the library read beyond the array. -/
theorem C78_violated_negative_number (ids : List Int) (h : ids.length < 4294967296) : setId (some ids) (-1) = none := by
  unfold setId
  have h1 : ((18446744073709551616 : Int) + -1).toNat = 18446744073709551615 := by decide +kernel
  simp only []
  rw [if_pos (by decide : (-1 : Int) < 0), h1, if_neg (by omega)]

example : setId (some [4, 5]) 2 = some [4, 5] := by decide +kernel

end Ecal.Capi
