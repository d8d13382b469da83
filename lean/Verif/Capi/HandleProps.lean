import Verif.Capi.Handle
import Verif.Capi.CopyProps

/-!
# C124: the C interface passes on what it is given

Specification: what the C program means (`Text`, `Block`, `Ids`, `Means`) is stated over its memory, without the functions of the model that take it
apart; which handle is valid (`Lives`) over the calls that were made and what they returned.
-/

namespace Ecal.Capi.Handle

/-- The memory holds the text `n`, ended by a zero. -/
def Text (m : Mem) (n : Bytes) : Prop := 0 ∉ n ∧ ∃ rest, m = some (n ++ 0 :: rest)

/-- The memory holds the `len` bytes `d`; for no bytes no memory is needed. -/
def Block (m : Mem) (len : Int) (d : Bytes) : Prop := len = d.length ∧ (d = [] ∨ ∃ rest, m = some (d ++ rest))

/-- The array holds the numbers `l`; a null array stands for none. -/
def Ids (arr : Option (List Int)) (num : Int) (l : List Int) : Prop :=
  (arr = none ∧ l = []) ∨ ∃ rest, arr = some (l ++ rest) ∧ num = l.length

/-- The C++ call a C program means by a call of a function. -/
inductive Means : Fn → Meth → Prop
  | create {s n t e d len n' t' e' d'} : Text n n' → Text t t' → Text e e' → Block d len d' → Means (.create s n t e d len) (.create n' t' e' d')
  | setAttr {s n nl v vl n' v'} : Block n nl n' → Block v vl v' → Means (.setAttr s n nl v vl) (.setAttr n' v')
  | clearAttr {s n nl n'} : Block n nl n' → Means (.clearAttr s n nl) (.clearAttr n')
  | setId {i} : Means (.setId i) (.setId i)
  | setIds {ids num l} : Ids ids num l → Means (.setIds ids num) (.setIds l)
  | isSubscribed : Means .isSubscribed .isSubscribed
  | send {b len time p} : Block b len p → Means (.send b len time) (.send p time)
  | addEvent {p ev cb} : Means (.addEvent p ev cb) (.addEvent ev cb)
  | remEvent {p ev} : Means (.remEvent p ev) (.remEvent ev)
  | dump {s t len} : Means (.dump s t len) .dump
  | addReceive {cb} : Means (.addReceive cb) (.addReceive cb)
  | remReceive : Means .remReceive .remReceive
  | typeText {p t len} : Means (.typeText p t len) .dataType
  | setHost {n n'} : Text n n' → Means (.setHost n) (.setHost n')
  | call {m r len to m' r'} : Text m m' → Block r len r' → Means (.call m r len to) (.call m' r' to)
  | callAsync {m r len to m' r'} : Text m m' → Block r len r' → Means (.callAsync m r len to) (.callAsync m' r' to)
  | addResponse {cb} : Means (.addResponse cb) (.addResponse cb)
  | remResponse : Means .remResponse .remResponse
  | addMethod {m rq rs cb m' rq' rs'} : Text m m' → Text rq rq' → Text rs rs' → Means (.addMethod m rq rs cb) (.addMethod m' rq' rs' cb)
  | remMethod {m m'} : Text m m' → Means (.remMethod m) (.remMethod m')
  | serviceName {s t len} : Means (.serviceName s t len) .serviceName
  | start {to d cb} : Means (.start to d cb) (.start to d cb)
  | stop : Means .stop .stop

/-- The type of the object a function is for, as its name says. -/
inductive For : Fn → Kind → Prop
  | pubCreate {n t e d len} : For (.create false n t e d len) (.peer .pub)
  | subCreate {n t e d len} : For (.create true n t e d len) (.peer .sub)
  | destroy {k} : For (.destroy k) k
  | pubSetAttr {n nl v vl} : For (.setAttr false n nl v vl) (.peer .pub)
  | subSetAttr {n nl v vl} : For (.setAttr true n nl v vl) (.peer .sub)
  | pubClearAttr {n nl} : For (.clearAttr false n nl) (.peer .pub)
  | subClearAttr {n nl} : For (.clearAttr true n nl) (.peer .sub)
  | setId {i} : For (.setId i) (.peer .pub)
  | setIds {ids num} : For (.setIds ids num) (.peer .sub)
  | isSubscribed : For .isSubscribed (.peer .pub)
  | send {b len time} : For (.send b len time) (.peer .pub)
  | addEvent {p ev cb} : For (.addEvent p ev cb) (.peer p)
  | remEvent {p ev} : For (.remEvent p ev) (.peer p)
  | pubDump {t len} : For (.dump false t len) (.peer .pub)
  | subDump {t len} : For (.dump true t len) (.peer .sub)
  | addReceive {cb} : For (.addReceive cb) (.peer .sub)
  | remReceive : For .remReceive (.peer .sub)
  | typeText {p t len} : For (.typeText p t len) (.peer .sub)
  | setHost {n} : For (.setHost n) (.peer .client)
  | call {m r len to} : For (.call m r len to) (.peer .client)
  | callAsync {m r len to} : For (.callAsync m r len to) (.peer .client)
  | addResponse {cb} : For (.addResponse cb) (.peer .client)
  | remResponse : For .remResponse (.peer .client)
  | addMethod {m rq rs cb} : For (.addMethod m rq rs cb) (.peer .server)
  | remMethod {m} : For (.remMethod m) (.peer .server)
  | clientName {t len} : For (.serviceName false t len) (.peer .client)
  | serverName {t len} : For (.serviceName true t len) (.peer .server)
  | start {to d cb} : For (.start to d cb) .timer
  | stop : For .stop .timer

/-- The lengths are those of a C `int`, and no block has 2^63 bytes. -/
def Real : Fn → Prop
  | .create _ _ _ _ d len => RealBlock d len
  | .setAttr _ n nl v vl => RealBlock n nl ∧ RealBlock v vl
  | .clearAttr _ n nl => RealBlock n nl
  | .setIds ids num => -2147483648 ≤ num ∧ ∀ l, ids = some l → l.length < 9223372036854775808
  | .send b len _ => RealBlock b len
  | .call _ r len _ => RealBlock r len
  | .callAsync _ r len _ => RealBlock r len
  | _ => True
where
  RealBlock (m : Mem) (len : Int) : Prop := -2147483648 ≤ len ∧ ∀ b, m = some b → b.length < 9223372036854775808

/-! ### Taking arguments apart -/

theorem takeWhile_text (n rest : Bytes) (h : 0 ∉ n) : (n ++ 0 :: rest).takeWhile (· != 0) = n := by
  induction n with
  | nil => simp
  | cons a l ih =>
    have ha : a ≠ 0 := fun e => h (by simp [e])
    have hl : 0 ∉ l := fun e => h (by simp [e])
    simp [ha, ih hl]

theorem split_zero (m : Bytes) (h : 0 ∈ m) : 0 ∉ m.takeWhile (· != 0) ∧ ∃ rest, m = m.takeWhile (· != 0) ++ 0 :: rest := by
  induction m with
  | nil => cases h
  | cons a l ih =>
    by_cases ha : a = 0
    · subst ha
      exact ⟨by simp, l, by simp⟩
    · have hl : 0 ∈ l := by
        rcases List.mem_cons.1 h with h | h
        · exact absurd h.symm ha
        · exact h
      obtain ⟨h1, rest, h2⟩ := ih hl
      have e : (a :: l).takeWhile (· != 0) = a :: l.takeWhile (· != 0) := by simp [ha]
      rw [e]
      refine ⟨?_, rest, ?_⟩
      · intro hm
        rcases List.mem_cons.1 hm with h | h
        · exact ha h.symm
        · exact h1 h
      · rw [List.cons_append, ← h2]

theorem cstr_iff (m : Mem) (n : Bytes) : cstr m = some n ↔ Text m n := by
  cases m with
  | none => simp [cstr, Text]
  | some b =>
    constructor
    · intro h
      by_cases hb : (0 : UInt8) ∈ b
      · have : b.takeWhile (· != 0) = n := by simpa [cstr, hb] using h
        obtain ⟨h1, rest, h2⟩ := split_zero b hb
        rw [this] at h1 h2
        exact ⟨h1, rest, by rw [← h2]⟩
      · simp [cstr, hb] at h
    · rintro ⟨h1, rest, h2⟩
      have hb : b = n ++ 0 :: rest := Option.some.inj h2
      subst hb
      have hm : (0 : UInt8) ∈ n ++ 0 :: rest := by simp
      simp only [cstr, List.contains_iff_mem, hm, if_true]
      rw [takeWhile_text n rest h1]

theorem slice_of_block {m : Mem} {len : Int} {d : Bytes} (h : Block m len d) : slice m len = some d := by
  obtain ⟨h1, h2⟩ := h
  have e : asSize len = d.length := by
    subst h1
    have hn : ¬ ((d.length : Int) < 0) := by omega
    simp [asSize, hn]
  rcases h2 with h2 | ⟨rest, h2⟩
  · subst h2; simp [slice, e]
  · subst h2
    by_cases hd : d = []
    · subst hd; simp [slice, e]
    · have : d.length ≠ 0 := fun h => hd (List.length_eq_zero_iff.1 h)
      simp [slice, e, hd]

theorem block_of_slice {m : Mem} {len : Int} {d : Bytes} (hr : Real.RealBlock m len) (h : slice m len = some d) : Block m len d := by
  obtain ⟨h1, h2⟩ := hr
  by_cases hz : asSize len = 0
  · have e : d = [] := by simpa [slice, hz] using h.symm
    subst e
    refine ⟨?_, .inl rfl⟩
    simp only [asSize] at hz
    split at hz <;> simp <;> omega
  · cases m with
    | none => simp [slice, hz] at h
    | some b =>
      have hb := h2 b rfl
      simp only [slice, hz, if_false] at h
      by_cases hl : asSize len ≤ b.length
      · rw [if_pos hl] at h
        have hd : b.take (asSize len) = d := Option.some.inj h
        have hn : ¬ len < 0 := by
          intro hneg
          simp only [asSize, hneg, if_true] at hl
          omega
        refine ⟨?_, .inr ⟨b.drop (asSize len), by rw [← hd, List.take_append_drop]⟩⟩
        rw [← hd, List.length_take]
        simp only [asSize, hn, if_false] at hl ⊢
        omega
      · rw [if_neg hl] at h; cases h

theorem setId_of_ids {arr : Option (List Int)} {num : Int} {l : List Int} (h : Ids arr num l) : Capi.setId arr num = some l := by
  rcases h with ⟨h1, h2⟩ | ⟨rest, h1, h2⟩
  · subst h1; subst h2; rfl
  · subst h1; subst h2
    have : ¬ ((l.length : Int) < 0) := by omega
    simp [Capi.setId, this]

theorem ids_of_setId {arr : Option (List Int)} {num : Int} {l : List Int}
    (hr : -2147483648 ≤ num ∧ ∀ x, arr = some x → x.length < 9223372036854775808) (h : Capi.setId arr num = some l) : Ids arr num l := by
  cases arr with
  | none => exact .inl ⟨rfl, by simpa [Capi.setId] using h.symm⟩
  | some b =>
    have hb := hr.2 b rfl
    by_cases hn : num < 0
    · have : ¬ (18446744073709551616 + num).toNat ≤ b.length := by omega
      simp [Capi.setId, hn, this] at h
    · simp only [Capi.setId, hn, if_false] at h
      by_cases hl : num.toNat ≤ b.length
      · rw [if_pos hl] at h
        have hd : b.take num.toNat = l := Option.some.inj h
        refine .inr ⟨b.drop num.toNat, by rw [← hd, List.take_append_drop], ?_⟩
        rw [← hd, List.length_take]; omega
      · rw [if_neg hl] at h; cases h

theorem decode_of_means {f : Fn} {m : Meth} (h : Means f m) : f.decode = some (.call m) := by
  cases h with
  | create h1 h2 h3 h4 => simp [Fn.decode, (cstr_iff _ _).2 h1, (cstr_iff _ _).2 h2, (cstr_iff _ _).2 h3, slice_of_block h4]
  | setAttr h1 h2 => simp [Fn.decode, slice_of_block h1, slice_of_block h2]
  | clearAttr h1 => simp [Fn.decode, slice_of_block h1]
  | setIds h1 => simp [Fn.decode, setId_of_ids h1]
  | send h1 => simp [Fn.decode, slice_of_block h1]
  | setHost h1 => simp [Fn.decode, (cstr_iff _ _).2 h1]
  | call h1 h2 => simp [Fn.decode, (cstr_iff _ _).2 h1, slice_of_block h2]
  | callAsync h1 h2 => simp [Fn.decode, (cstr_iff _ _).2 h1, slice_of_block h2]
  | addMethod h1 h2 h3 => simp [Fn.decode, (cstr_iff _ _).2 h1, (cstr_iff _ _).2 h2, (cstr_iff _ _).2 h3]
  | remMethod h1 => simp [Fn.decode, (cstr_iff _ _).2 h1]
  | _ => rfl

theorem means_of_decode {f : Fn} {m : Meth} (hr : Real f) (h : f.decode = some (.call m)) : Means f m := by
  cases f with
  | create s n t e d len =>
    simp only [Fn.decode, Option.bind_eq_bind, Option.bind_eq_some_iff, Option.pure_def, Option.some.injEq, Act.call.injEq] at h
    obtain ⟨_, h1, _, h2, _, h3, _, h4, rfl⟩ := h
    exact .create ((cstr_iff _ _).1 h1) ((cstr_iff _ _).1 h2) ((cstr_iff _ _).1 h3) (block_of_slice hr h4)
  | setAttr s n nl v vl =>
    simp only [Fn.decode, Option.bind_eq_bind, Option.bind_eq_some_iff, Option.pure_def, Option.some.injEq, Act.call.injEq] at h
    obtain ⟨_, h1, _, h2, rfl⟩ := h
    exact .setAttr (block_of_slice hr.1 h1) (block_of_slice hr.2 h2)
  | clearAttr s n nl =>
    simp only [Fn.decode, Option.bind_eq_bind, Option.bind_eq_some_iff, Option.pure_def, Option.some.injEq, Act.call.injEq] at h
    obtain ⟨_, h1, rfl⟩ := h
    exact .clearAttr (block_of_slice hr h1)
  | setIds ids num =>
    simp only [Fn.decode, Option.bind_eq_bind, Option.bind_eq_some_iff, Option.pure_def, Option.some.injEq, Act.call.injEq] at h
    obtain ⟨_, h1, rfl⟩ := h
    exact .setIds (ids_of_setId hr h1)
  | send b len time =>
    simp only [Fn.decode, Option.bind_eq_bind, Option.bind_eq_some_iff, Option.pure_def, Option.some.injEq, Act.call.injEq] at h
    obtain ⟨_, h1, rfl⟩ := h
    exact .send (block_of_slice hr h1)
  | setHost n =>
    simp only [Fn.decode, Option.bind_eq_bind, Option.bind_eq_some_iff, Option.pure_def, Option.some.injEq, Act.call.injEq] at h
    obtain ⟨_, h1, rfl⟩ := h
    exact .setHost ((cstr_iff _ _).1 h1)
  | call mt r len to =>
    simp only [Fn.decode, Option.bind_eq_bind, Option.bind_eq_some_iff, Option.pure_def, Option.some.injEq, Act.call.injEq] at h
    obtain ⟨_, h1, _, h2, rfl⟩ := h
    exact .call ((cstr_iff _ _).1 h1) (block_of_slice hr h2)
  | callAsync mt r len to =>
    simp only [Fn.decode, Option.bind_eq_bind, Option.bind_eq_some_iff, Option.pure_def, Option.some.injEq, Act.call.injEq] at h
    obtain ⟨_, h1, _, h2, rfl⟩ := h
    exact .callAsync ((cstr_iff _ _).1 h1) (block_of_slice hr h2)
  | addMethod mt rq rs cb =>
    simp only [Fn.decode, Option.bind_eq_bind, Option.bind_eq_some_iff, Option.pure_def, Option.some.injEq, Act.call.injEq] at h
    obtain ⟨_, h1, _, h2, _, h3, rfl⟩ := h
    exact .addMethod ((cstr_iff _ _).1 h1) ((cstr_iff _ _).1 h2) ((cstr_iff _ _).1 h3)
  | remMethod mt =>
    simp only [Fn.decode, Option.bind_eq_bind, Option.bind_eq_some_iff, Option.pure_def, Option.some.injEq, Act.call.injEq] at h
    obtain ⟨_, h1, rfl⟩ := h
    exact .remMethod ((cstr_iff _ _).1 h1)
  | destroy k => simp [Fn.decode] at h
  | _ => (simp only [Fn.decode, Option.some.injEq, Act.call.injEq] at h; subst h; constructor)

theorem decode_delete {f : Fn} (h : f.decode = some .delete) : ∃ k, f = .destroy k := by
  cases f <;> simp [Fn.decode, Option.bind_eq_some_iff] at h
  exact ⟨_, rfl⟩

/-! ### One call -/

/-- C124: a function takes its handle for an object of the type it is for, and of no other. -/
theorem C124_types (f : Fn) (k : Kind) : For f k ↔ f.kind = k := by
  constructor
  · intro h; cases h <;> rfl
  · intro h
    subst h
    cases f with
    | create s => cases s <;> constructor
    | setAttr s => cases s <;> constructor
    | clearAttr s => cases s <;> constructor
    | dump s => cases s <;> constructor
    | serviceName s => cases s <;> constructor
    | _ => constructor

/-- C124: a function that is given no object does nothing and returns 0, whatever the other arguments are. -/
theorem C124_null_handle (env : List (Nat × Event) → Reply) (w : World) (f : Fn) : useHandle env w none f = (w, .done (.ret 0 f.target)) := rfl

/-- C124: a function that is given an object calls the C++ method that is meant, once, on that object and with exactly the texts and bytes of the
caller; it does not change which objects there are, and it returns. -/
theorem C124_passed_on (env : List (Nat × Event) → Reply) (w : World) (a : Nat) (f : Fn) (m : Meth) (hk : w.at a = some f.kind) (hm : Means f m) :
    (useHandle env w (some a) f).1.log = w.log ++ [(a, .called m)] ∧ (useHandle env w (some a) f).1.objs = w.objs ∧
    ∃ o, (useHandle env w (some a) f).2 = .done o := by
  simp only [useHandle, hk, if_true, onObject, decode_of_means hm]
  exact ⟨trivial, trivial, _, rfl⟩

/-- C124: nothing else is passed on: a function uses memory that is not there exactly if there is no object of its type at the handle or its
arguments do not mean any call. -/
theorem C124_bad_iff (env : List (Nat × Event) → Reply) (w : World) (a : Nat) (f : Fn) (hr : Real f) (hd : ∀ k, f ≠ .destroy k) :
    (useHandle env w (some a) f).2 = .bad ↔ w.at a ≠ some f.kind ∨ ∀ m, ¬ Means f m := by
  by_cases hk : w.at a = some f.kind
  · simp only [useHandle, hk, if_true, ne_eq, not_true_eq_false, false_or]
    constructor
    · intro h m hm
      simp [onObject, decode_of_means hm] at h
    · intro h
      unfold onObject
      cases hc : f.decode with
      | none => rfl
      | some act =>
        cases act with
        | delete => obtain ⟨k, hk'⟩ := decode_delete hc; exact absurd hk' (hd k)
        | call m => exact absurd (means_of_decode hr hc) (h m)
  · simp [useHandle, hk]

example : Means (.create true (some [97, 0]) (some [0]) (some [112, 0, 7]) (some [1, 0, 2]) 3) (.create [97] [] [112] [1, 0, 2]) :=
  .create ⟨by decide, [], rfl⟩ ⟨by decide, [], rfl⟩ ⟨by decide, [7], rfl⟩ ⟨rfl, .inr ⟨[], rfl⟩⟩

example : (useHandle (fun _ => { ok := true }) { objs := [(5, .peer .sub)] } (some 5)
    (.create true (some [97, 0]) (some [0]) (some [112, 0, 7]) (some [1, 0, 2]) 3)).2 = .done (.ret 1 .null) := by decide +kernel

/-- Functions that answer with yes or no. -/
def YesNo : Fn → Prop
  | .destroy _ | .setIds .. | .send .. | .dump .. | .typeText .. | .serviceName .. => False
  | _ => True

/-- C124: a function that answers with yes or no returns 1 if the C++ method said yes and 0 if it said no. -/
theorem C124_yes_no (env : List (Nat × Event) → Reply) (w : World) (a : Nat) (f : Fn) (m : Meth) (hk : w.at a = some f.kind) (hm : Means f m)
    (hy : YesNo f) :
    (useHandle env w (some a) f).2 = .done (.ret (if (env (w.log ++ [(a, .called m)])).ok = true then 1 else 0) .null) := by
  simp only [useHandle, hk, if_true, onObject, decode_of_means hm]
  cases f <;> first | exact hy.elim | rfl

/-- C124 (partial: at least one byte is sent): `eCAL_Pub_Send` returns the number of bytes if the publisher has sent all of them, and 0
otherwise. -/
theorem C124_send_partial (env : List (Nat × Event) → Reply) (w : World) (a : Nat) (buf : Mem) (len time : Int) (p : Bytes)
    (hk : w.at a = some (.peer .pub)) (hb : Block buf len p) (hp : p ≠ []) (hl : p.length < 2147483648)
    (hs : (env (w.log ++ [(a, .called (.send p time))])).size ≤ p.length) :
    ∃ v, (useHandle env w (some a) (.send buf len time)).2 = .done (.ret v .null) ∧
      (v = p.length ↔ (env (w.log ++ [(a, .called (.send p time))])).size = p.length) ∧ (v = 0 ∨ v = p.length) := by
  have hd := decode_of_means (.send (time := time) hb)
  have hpos := List.length_pos_iff.2 hp
  have hlen := hb.1
  refine ⟨_, by simp only [useHandle, Fn.kind, hk, if_true, onObject, hd]; rfl, ?_, ?_⟩
  · rw [toInt_small _ (by omega)]
    split <;> omega
  · split <;> omega

example : (useHandle (fun _ => { size := 2 }) { objs := [(5, .peer .pub)] } (some 5) (.send (some [1, 2, 3]) 2 (-1))).2 = .done (.ret 2 .null) := by
  decide +kernel

/-- C124 is violated: of a message without bytes the caller does not learn whether it was sent; 0 is returned whatever the publisher says. -/
theorem C124_violated_empty_send (env : List (Nat × Event) → Reply) (w : World) (a : Nat) (buf : Mem) (time : Int)
    (hk : w.at a = some (.peer .pub)) : (useHandle env w (some a) (.send buf 0 time)).2 = .done (.ret 0 .null) := by
  have hd := decode_of_means (.send (time := time) (b := buf) (len := 0) (p := []) ⟨rfl, .inl rfl⟩)
  simp only [useHandle, Fn.kind, hk, if_true, onObject, hd, Fn.answer]
  split <;> rfl

/-- C124 is violated: `eCAL_Sub_SetID` returns 1 also if the subscriber has refused the ids (it is not created, ecal_subscriber.cpp L126). -/
theorem C124_violated_ids (env : List (Nat × Event) → Reply) (w : World) (a : Nat) (ids : Option (List Int)) (n : Int) (l : List Int)
    (hk : w.at a = some (.peer .sub)) (hi : Ids ids n l) :
    (useHandle env w (some a) (.setIds ids n)).2 = .done (.ret 1 .null) := by
  simp only [useHandle, Fn.kind, hk, if_true, onObject, decode_of_means (.setIds hi), Fn.answer]

/-- C124 (partial: the text is not empty and shorter than 2 GB, the length is that of the buffer): the functions that return a text return that of
the C++ object, completely or not at all. -/
theorem C124_text_partial (env : List (Nat × Event) → Reply) (w : World) (a : Nat) (f : Fn) (m : Meth) (buf text : Bytes) (hk : w.at a = some f.kind)
    (hb : buf ≠ []) (ht : text ≠ []) (hs : text.length < 2147483648)
    (hf : (m = .dump ∧ (∃ s, f = .dump s (.bytes buf) buf.length) ∧ (env (w.log ++ [(a, .called m)])).text = text) ∨
      (m = .serviceName ∧ (∃ s, f = .serviceName s (.bytes buf) buf.length) ∧ (env (w.log ++ [(a, .called m)])).text = text) ∨
      (m = .dataType ∧ ∃ p, f = .typeText p (.bytes buf) buf.length ∧ (env (w.log ++ [(a, .called m)])).part p = text)) :
    (useHandle env w (some a) f).2 =
      .done (if text.length ≤ buf.length then .ret text.length (.bytes (text ++ buf.drop text.length)) else .ret 0 (.bytes buf)) := by
  rcases hf with ⟨rfl, ⟨s, rfl⟩, rfl⟩ | ⟨rfl, ⟨s, rfl⟩, rfl⟩ | ⟨rfl, p, rfl, rfl⟩
  · simp only [useHandle, hk, if_true, onObject, Fn.decode, Fn.answer, ht, if_false]
    rw [C78_copy_partial _ _ _ hb ht hs]
  · simp only [useHandle, hk, if_true, onObject, Fn.decode, Fn.answer]
    rw [C78_text_partial _ _ _ hb ht hs]
  · simp only [useHandle, hk, if_true, onObject, Fn.decode, Fn.answer]
    rw [C78_text_partial _ _ _ hb ht hs]

/-! ### Handles -/

/-- By the calls made and what they returned, `a` is the handle of an object of the kind `k` that has not been destroyed. -/
def Lives (t : List (Op × Outcome)) (a : Nat) (k : Kind) : Prop :=
  ∃ pre name post, t = pre ++ (.make k name a, .handle (some a)) :: post ∧ ∀ x ∈ post, ∀ k', x.1 ≠ .use (some a) (.destroy k')

/-- Runs, from the end. -/
inductive Trace (env : List (Nat × Event) → Reply) : World → List (Op × Outcome) → Prop
  | nil : Trace env {} []
  | snoc {w t o w' out} : Trace env w t → (∀ x ∈ t, x.2 ≠ .bad) → step env w o = some (w', out) → Trace env w' (t ++ [(o, out)])

theorem run_trace {env : List (Nat × Event) → Reply} (os : List Op) : ∀ {w t w' t'}, Trace env w t → (∀ x ∈ t, x.2 ≠ .bad) →
    run env w os = some (w', t') → Trace env w' (t ++ t') := by
  induction os with
  | nil =>
    intro w t w' t' h _ hr
    simp only [run, Option.some.injEq, Prod.mk.injEq] at hr
    obtain ⟨rfl, rfl⟩ := hr
    simpa using h
  | cons o os ih =>
    intro w t w' t' h hb hr
    unfold run at hr
    cases hs : step env w o with
    | none => simp [hs] at hr
    | some r =>
      obtain ⟨w1, out⟩ := r
      simp only [hs] at hr
      have h1 : Trace env w1 (t ++ [(o, out)]) := .snoc h hb hs
      by_cases ho : out = .bad
      · rw [if_pos ho] at hr
        simp only [Option.some.injEq, Prod.mk.injEq] at hr
        obtain ⟨rfl, rfl⟩ := hr
        exact h1
      · rw [if_neg ho] at hr
        cases hr2 : run env w1 os with
        | none => simp [hr2] at hr
        | some r2 =>
          obtain ⟨w2, t2⟩ := r2
          simp only [hr2, Option.some.injEq, Prod.mk.injEq] at hr
          obtain ⟨rfl, rfl⟩ := hr
          have hb' : ∀ x ∈ t ++ [(o, out)], x.2 ≠ .bad := by
            intro x hx
            rcases List.mem_append.1 hx with hx | hx
            · exact hb x hx
            · simp only [List.mem_singleton] at hx; subst hx; exact ho
          have := ih h1 hb' hr2
          simpa using this

theorem lives_snoc (t : List (Op × Outcome)) (x : Op × Outcome) (a : Nat) (k : Kind) :
    Lives (t ++ [x]) a k ↔ (∃ name, x = (.make k name a, .handle (some a))) ∨ (Lives t a k ∧ ∀ k', x.1 ≠ .use (some a) (.destroy k')) := by
  constructor
  · rintro ⟨pre, name, post, h, hp⟩
    rcases List.eq_nil_or_concat post with rfl | ⟨l, b, rfl⟩
    · have := List.append_inj' h rfl
      simp only [List.cons.injEq, and_true] at this
      exact .inl ⟨name, this.2⟩
    · rw [show pre ++ (Op.make k name a, Outcome.handle (some a)) :: (l.concat b) =
        (pre ++ (Op.make k name a, Outcome.handle (some a)) :: l) ++ [b] by simp] at h
      have := List.append_inj' h rfl
      simp only [List.cons.injEq, and_true] at this
      refine .inr ⟨⟨pre, name, l, this.1, fun y hy => hp y (by simp [hy])⟩, ?_⟩
      rw [this.2]
      exact hp b (by simp)
  · rintro (⟨name, rfl⟩ | ⟨⟨pre, name, post, rfl, hp⟩, hx⟩)
    · exact ⟨t, name, [], rfl, fun _ h => by cases h⟩
    · refine ⟨pre, name, post ++ [x], by simp, ?_⟩
      intro y hy
      rcases List.mem_append.1 hy with hy | hy
      · exact hp y hy
      · simp only [List.mem_singleton] at hy; subst hy; exact hx

theorem at_add (w : World) (k : Kind) (n : Bytes) (a b : Nat) : (w.add k n a).at b = if a = b then some k else w.at b := by
  by_cases h : a = b
  · subst h; simp [World.at, World.add]
  · have : (a == b) = false := by simpa using h
    simp [World.at, World.add, this, h]

theorem at_delete (objs : List (Nat × Kind)) (a b : Nat) :
    ((objs.filter (·.1 != a)).find? (·.1 == b)).map (·.2) = if a = b then none else (objs.find? (·.1 == b)).map (·.2) := by
  induction objs with
  | nil => simp
  | cons x l ih =>
    by_cases hx : x.1 = a
    · have h1 : (x.1 != a) = false := by simpa using hx
      rw [List.filter_cons, h1, if_neg (by simp), ih]
      by_cases h : a = b
      · simp [h]
      · have h2 : (x.1 == b) = false := by simp; omega
        rw [if_neg h, if_neg h, List.find?_cons, h2]
    · have h1 : (x.1 != a) = true := by simpa using hx
      rw [List.filter_cons, h1, if_pos rfl, List.find?_cons, List.find?_cons]
      by_cases h2 : x.1 = b
      · have h3 : a ≠ b := by omega
        simp [h2, h3]
      · have h3 : (x.1 == b) = false := by simpa using h2
        rw [h3]
        exact ih

/-- A step that is not `bad`, case by case. -/
theorem step_cases {env : List (Nat × Event) → Reply} {w w' : World} {o : Op} {out : Outcome} (h : step env w o = some (w', out)) :
    (∃ k name a n, o = .make k name a ∧ w.at a = none ∧ out = .handle (some a) ∧ w' = w.add k n a) ∨
    (∃ a k, o = .use (some a) (.destroy k) ∧ w.at a = some k ∧ out = .done (.ret 1 .null) ∧
      w' = { objs := w.objs.filter (·.1 != a), log := w.log ++ [(a, .deleted)] }) ∨
    (∃ a f m, o = .use (some a) f ∧ w.at a = some f.kind ∧ f.decode = some (.call m) ∧ out = .done (f.answer (env (w.log ++ [(a, .called m)]))) ∧
      w' = { w with log := w.log ++ [(a, .called m)] }) ∨
    (w' = w ∧ (out = .bad ∨ (∃ k name a, o = .make k name a ∧ out = .handle none) ∨ (∃ f, o = .use none f))) := by
  cases o with
  | make k name a =>
    simp only [step] at h
    by_cases ha : w.at a = none
    · rw [if_pos ha] at h
      simp only [make, Option.some.injEq] at h
      by_cases hn : named k = true
      · rw [if_pos hn] at h
        by_cases hm : name = none
        · rw [if_pos hm] at h
          simp only [Prod.mk.injEq] at h
          exact .inr (.inr (.inr ⟨h.1.symm, .inr (.inl ⟨k, name, a, rfl, h.2.symm⟩)⟩))
        · rw [if_neg hm] at h
          cases hc : cstr name with
          | none =>
            simp only [hc, Prod.mk.injEq] at h
            exact .inr (.inr (.inr ⟨h.1.symm, .inl h.2.symm⟩))
          | some n =>
            simp only [hc, Prod.mk.injEq] at h
            exact .inl ⟨k, name, a, n, rfl, ha, h.2.symm, h.1.symm⟩
      · rw [if_neg hn] at h
        simp only [Prod.mk.injEq] at h
        exact .inl ⟨k, name, a, [], rfl, ha, h.2.symm, h.1.symm⟩
    · rw [if_neg ha] at h; cases h
  | use hd f =>
    simp only [step, Option.some.injEq] at h
    cases hd with
    | none =>
      simp only [useHandle, Prod.mk.injEq] at h
      exact .inr (.inr (.inr ⟨h.1.symm, .inr (.inr ⟨f, rfl⟩)⟩))
    | some a =>
      simp only [useHandle] at h
      by_cases hk : w.at a = some f.kind
      · rw [if_pos hk] at h
        unfold onObject at h
        cases hc : f.decode with
        | none =>
          simp only [hc, Prod.mk.injEq] at h
          exact .inr (.inr (.inr ⟨h.1.symm, .inl h.2.symm⟩))
        | some act =>
          cases act with
          | delete =>
            simp only [hc, Prod.mk.injEq] at h
            obtain ⟨k, rfl⟩ := decode_delete hc
            exact .inr (.inl ⟨a, k, rfl, hk, h.2.symm, h.1.symm⟩)
          | call m =>
            simp only [hc, Prod.mk.injEq] at h
            exact .inr (.inr (.inl ⟨a, f, m, rfl, hk, hc, h.2.symm, h.1.symm⟩))
      · rw [if_neg hk] at h
        simp only [Prod.mk.injEq] at h
        exact .inr (.inr (.inr ⟨h.1.symm, .inl h.2.symm⟩))

theorem trace_alive {env : List (Nat × Event) → Reply} {w : World} {t : List (Op × Outcome)} (h : Trace env w t) (hb : ∀ x ∈ t, x.2 ≠ .bad)
    (a : Nat) (k : Kind) : w.at a = some k ↔ Lives t a k := by
  induction h generalizing a k with
  | nil =>
    constructor
    · intro h; cases h
    · rintro ⟨pre, name, post, h, _⟩
      simp at h
  | @snoc w t o w' out ht hb' hs ih =>
    have ih := ih hb'
    rw [lives_snoc]
    rcases step_cases hs with ⟨k1, nm, a1, n, rfl, hn, rfl, rfl⟩ | ⟨a1, k1, rfl, hk, rfl, rfl⟩ | ⟨a1, f, m, rfl, hk, hc, rfl, rfl⟩ | ⟨rfl, hr⟩
    · rw [at_add]
      by_cases h : a1 = a
      · subst h
        rw [if_pos rfl]
        constructor
        · intro h
          have := Option.some.inj h
          subst this
          exact .inl ⟨nm, rfl⟩
        · rintro (⟨_, h⟩ | ⟨hl, _⟩)
          · simp only [Prod.mk.injEq, Op.make.injEq] at h
            rw [h.1.1]
          · have := (ih a1 k).2 hl
            rw [hn] at this; cases this
      · rw [if_neg h, ih a k]
        constructor
        · intro hl; exact .inr ⟨hl, fun k' => by simp⟩
        · rintro (⟨_, hx⟩ | ⟨hl, _⟩)
          · simp only [Prod.mk.injEq, Op.make.injEq] at hx
            exact absurd hx.1.2.2 h
          · exact hl
    · unfold World.at
      rw [at_delete]
      by_cases h : a1 = a
      · subst h
        rw [if_pos rfl]
        constructor
        · intro h; cases h
        · rintro (⟨_, h⟩ | ⟨_, hx⟩)
          · simp at h
          · exact absurd rfl (hx k1)
      · rw [if_neg h]
        constructor
        · intro hl; exact .inr ⟨(ih a k).1 hl, fun k' he => by simp only [Op.use.injEq, Option.some.injEq] at he; exact h he.1⟩
        · rintro (⟨_, hx⟩ | ⟨hl, _⟩)
          · simp at hx
          · exact (ih a k).2 hl
    · rw [show ({ w with log := w.log ++ [(a1, Event.called m)] } : World).at a = w.at a from rfl, ih a k]
      constructor
      · intro hl
        refine .inr ⟨hl, fun k' he => ?_⟩
        simp only [Op.use.injEq] at he
        rw [he.2] at hc
        simp [Fn.decode] at hc
      · rintro (⟨_, hx⟩ | ⟨hl, _⟩)
        · simp at hx
        · exact hl
    · have hob : out ≠ .bad := hb (o, out) (by simp)
      rcases hr with hr | ⟨k1, nm, a1, rfl, rfl⟩ | ⟨f, rfl⟩
      · exact absurd hr hob
      · rw [ih a k]
        constructor
        · intro hl; exact .inr ⟨hl, fun k' => by simp⟩
        · rintro (⟨_, hx⟩ | ⟨hl, _⟩)
          · simp at hx
          · exact hl
      · rw [ih a k]
        constructor
        · intro hl; exact .inr ⟨hl, fun k' => by simp⟩
        · rintro (⟨_, hx⟩ | ⟨hl, _⟩)
          · simp at hx
          · exact hl

/-- C124: at every moment the objects that exist are exactly those whose handle was given to the C program and that it has not destroyed. -/
theorem C124_handles (env : List (Nat × Event) → Reply) (os : List Op) (w : World) (t : List (Op × Outcome)) (h : run env {} os = some (w, t))
    (hb : ∀ x ∈ t, x.2 ≠ .bad) (a : Nat) (k : Kind) : w.at a = some k ↔ Lives t a k := by
  have := run_trace os (.nil (env := env)) (fun _ h => by cases h) h
  exact trace_alive this hb a k

/-- The rules for the C program: a name is a text or null; a handle is null or that of an object of the type of the function, created and not yet
destroyed; the other arguments mean something. -/
def Follows (t : List (Op × Outcome)) : Op → Prop
  | .make k name _ => k = .peer .client ∨ k = .peer .server → name = none ∨ ∃ n, Text name n
  | .use none _ => True
  | .use (some a) f => Lives t a f.kind ∧ ((∃ k, f = .destroy k) ∨ ∃ m, Means f m)

theorem trace_follows {env : List (Nat × Event) → Reply} {w : World} {t : List (Op × Outcome)} (h : Trace env w t)
    (hf : ∀ pre x post, t = pre ++ x :: post → Follows pre x.1) : ∀ x ∈ t, x.2 ≠ .bad := by
  induction h with
  | nil => intro x hx; cases hx
  | @snoc w t o w' out ht hb' hs ih =>
    intro x hx
    rcases List.mem_append.1 hx with hx | hx
    · exact hb' x hx
    · simp only [List.mem_singleton] at hx
      subst hx
      have hfo := hf t (o, out) [] rfl
      intro hbad
      simp only at hbad
      subst hbad
      cases o with
      | make k name a =>
        simp only [step] at hs
        by_cases ha : w.at a = none
        · rw [if_pos ha] at hs
          simp only [Option.some.injEq, make] at hs
          by_cases hn : named k = true
          · rw [if_pos hn] at hs
            by_cases hm : name = none
            · rw [if_pos hm] at hs; simp at hs
            · rw [if_neg hm] at hs
              have hkk : k = .peer .client ∨ k = .peer .server := by
                revert hn
                cases k with
                | timer => intro h; cases h
                | peer p => cases p <;> simp [named]
              rcases hfo hkk with h | ⟨n, h⟩
              · exact hm h
              · rw [(cstr_iff _ _).2 h] at hs; simp at hs
          · rw [if_neg hn] at hs; simp at hs
        · rw [if_neg ha] at hs; cases hs
      | use hd f =>
        simp only [step, Option.some.injEq] at hs
        cases hd with
        | none => simp [useHandle] at hs
        | some a =>
          obtain ⟨hl, hm⟩ := hfo
          have hk := (trace_alive ht hb' a f.kind).2 hl
          simp only [useHandle, hk, if_true] at hs
          rcases hm with ⟨k, rfl⟩ | ⟨m, hm⟩
          · simp [onObject, Fn.decode] at hs
          · simp [onObject, decode_of_means hm] at hs

/-- C124: a C program that keeps to the rules never makes the interface use memory that is not there, whatever it calls, in any order and however
often, and whatever the objects answer. -/
theorem C124_safe (env : List (Nat × Event) → Reply) (os : List Op) (w : World) (t : List (Op × Outcome)) (h : run env {} os = some (w, t))
    (hf : ∀ pre x post, t = pre ++ x :: post → Follows pre x.1) : ∀ x ∈ t, x.2 ≠ .bad := by
  have := run_trace os (.nil (env := env)) (fun _ h => by cases h) h
  exact trace_follows this hf

/-- How often an object was made at an address. -/
def madeAt (l : List (Nat × Event)) (a : Nat) : Nat :=
  l.countP fun e => match e with
    | (b, .made ..) => b == a
    | _ => false

/-- How often an object was deleted at an address. -/
def deletedAt (l : List (Nat × Event)) (a : Nat) : Nat := l.countP (· == (a, .deleted))

/-- An object can be made at the address, or there is one. -/
def Fits (l : List (Nat × Event)) (x : Nat × Event) : Prop :=
  madeAt l x.1 = deletedAt l x.1 + (match x.2 with
    | .made .. => 0
    | _ => 1)

theorem madeAt_snoc (l : List (Nat × Event)) (x : Nat × Event) (a : Nat) :
    madeAt (l ++ [x]) a = madeAt l a + (match x with
      | (b, .made ..) => if b = a then 1 else 0
      | _ => 0) := by
  obtain ⟨b, e⟩ := x
  simp only [madeAt, List.countP_append, List.countP_singleton]
  cases e <;> simp

theorem deletedAt_snoc (l : List (Nat × Event)) (x : Nat × Event) (a : Nat) :
    deletedAt (l ++ [x]) a = deletedAt l a + if x = (a, .deleted) then 1 else 0 := by
  simp only [deletedAt, List.countP_append, List.countP_singleton, beq_iff_eq]

theorem split_snoc {α : Type} (l pre post : List α) (y x : α) (h : l ++ [y] = pre ++ x :: post) :
    (pre = l ∧ x = y ∧ post = []) ∨ ∃ p, post = p ++ [y] ∧ l = pre ++ x :: p := by
  rcases List.eq_nil_or_concat post with rfl | ⟨p, b, rfl⟩
  · have := List.append_inj' h rfl
    simp only [List.cons.injEq, and_true] at this
    exact .inl ⟨this.1.symm, this.2.symm, rfl⟩
  · rw [show pre ++ x :: (p.concat b) = (pre ++ x :: p) ++ [b] by simp] at h
    have := List.append_inj' h rfl
    simp only [List.cons.injEq, and_true] at this
    exact .inr ⟨p, by rw [this.2]; simp, this.1⟩

/-- The log is in order, and it tells which objects there are. -/
def Ordered (w : World) : Prop :=
  (∀ a, madeAt w.log a = deletedAt w.log a + if w.at a = none then 0 else 1) ∧ ∀ pre x post, w.log = pre ++ x :: post → Fits pre x

theorem ordered_step {env : List (Nat × Event) → Reply} {w w' : World} {o : Op} {out : Outcome} (hw : Ordered w)
    (h : step env w o = some (w', out)) : Ordered w' := by
  obtain ⟨hc, hs⟩ := hw
  rcases step_cases h with ⟨k1, nm, a1, n, rfl, hn, rfl, rfl⟩ | ⟨a1, k1, rfl, hk, rfl, rfl⟩ | ⟨a1, f, m, rfl, hk, _, rfl, rfl⟩ | ⟨rfl, _⟩
  · constructor
    · intro a
      have hca := hc a
      rw [at_add]
      simp only [World.add]
      rw [madeAt_snoc, deletedAt_snoc]
      by_cases ha : a1 = a
      · subst ha; simp [hn] at hca ⊢; omega
      · simp [ha]; exact hca
    · intro pre x post he
      simp only [World.add] at he
      rcases split_snoc _ _ _ _ _ he with ⟨rfl, rfl, _⟩ | ⟨p, _, hl⟩
      · have hca := hc a1
        simp only [Fits]
        simpa [hn] using hca
      · exact hs pre x p hl
  · constructor
    · intro a
      have hca := hc a
      have hat : ({ objs := w.objs.filter (·.1 != a1), log := w.log ++ [(a1, Event.deleted)] } : World).at a = if a1 = a then none else w.at a :=
        at_delete w.objs a1 a
      simp only [hat]
      rw [madeAt_snoc, deletedAt_snoc]
      by_cases ha : a1 = a
      · subst ha
        simp [hk] at hca ⊢; omega
      · simp [ha] at hca ⊢; exact hca
    · intro pre x post he
      rcases split_snoc _ _ _ _ _ he with ⟨rfl, rfl, _⟩ | ⟨p, _, hl⟩
      · have hca := hc a1
        simp only [Fits]
        simpa [hk] using hca
      · exact hs pre x p hl
  · constructor
    · intro a
      have hca := hc a
      change madeAt (w.log ++ [(a1, Event.called m)]) a = deletedAt (w.log ++ [(a1, Event.called m)]) a + if w.at a = none then 0 else 1
      rw [madeAt_snoc, deletedAt_snoc]
      simpa using hca
    · intro pre x post he
      rcases split_snoc _ _ _ _ _ he with ⟨rfl, rfl, _⟩ | ⟨p, _, hl⟩
      · have hca := hc a1
        simp only [Fits]
        simpa [hk] using hca
      · exact hs pre x p hl
  · exact ⟨hc, hs⟩

theorem trace_ordered {env : List (Nat × Event) → Reply} {w : World} {t : List (Op × Outcome)} (h : Trace env w t) : Ordered w := by
  induction h with
  | nil =>
    refine ⟨fun _ => rfl, ?_⟩
    intro pre x post h
    have := congrArg List.length h
    simp at this
  | snoc _ _ hs ih => exact ordered_step ih hs

/-- C124: objects are made and deleted in turns.  Every object that was made is deleted at most once - those that are not deleted are the ones that
exist -, and a method is called, or an object deleted, only between the two. -/
theorem C124_deleted_once (env : List (Nat × Event) → Reply) (os : List Op) (w : World) (t : List (Op × Outcome))
    (h : run env {} os = some (w, t)) :
    (∀ a, madeAt w.log a = deletedAt w.log a + if w.at a = none then 0 else 1) ∧ ∀ pre x post, w.log = pre ++ x :: post → Fits pre x :=
  trace_ordered (run_trace os (.nil (env := env)) (fun _ h => by cases h) h)

/-- A publisher and a client are made, used and destroyed; the address of the publisher is used again. -/
def sample : List Op :=
  [.make (.peer .pub) none 1, .make (.peer .client) (some [115, 0]) 2, .use (some 1) (.create false (some [97, 0]) (some [0]) (some [0]) none 0),
   .use (some 2) (.call (some [109, 0]) (some [7]) 1 100), .use (some 1) (.destroy (.peer .pub)), .make (.peer .sub) none 1,
   .use (some 1) (.setIds none 0), .use none .stop]

example : ((run (fun _ => { ok := true }) {} sample).map fun r => (r.1.objs, r.2.map (·.2))) =
    some ([(1, .peer .sub), (2, .peer .client)],
      [.handle (some 1), .handle (some 2), .done (.ret 1 .null), .done (.ret 1 .null), .done (.ret 1 .null), .handle (some 1), .done (.ret 1 .null),
       .done (.ret 0 .null)]) := by decide +kernel

/-! ### Callbacks -/

/-- C124 (partial: no text contains a zero byte): the event callback of a C program is told what a C++ callback is told. -/
theorem C124_told_partial (d : Told) (h : 0 ∉ d.tid ∧ 0 ∉ d.type ∧ 0 ∉ d.enc ∧ 0 ∉ d.desc) :
    (toldC d).event = d.event ∧ (toldC d).time = d.time ∧ (toldC d).clock = d.clock ∧ Text (toldC d).tid d.tid ∧ Text (toldC d).tname d.type ∧
    Text (toldC d).enc d.enc ∧ Text (toldC d).desc d.desc :=
  ⟨rfl, rfl, rfl, ⟨h.1, [], rfl⟩, ⟨h.2.1, [], rfl⟩, ⟨h.2.2.1, [], rfl⟩, ⟨h.2.2.2, [], rfl⟩⟩

example : (0 : UInt8) ∉ [97, 98] := by decide

/-- C124 is violated: the description of a type may contain zero bytes (a serialised descriptor does), but an event callback gets no length; what it
can read as a text ends before the first zero. -/
theorem C124_violated_description (d : Told) (a b : Bytes) (ha : 0 ∉ a) (hd : d.desc = a ++ 0 :: b) :
    ∀ s, Text (toldC d).desc s → s = a := by
  intro s hs
  have h1 := (cstr_iff _ _).2 hs
  have h2 : Text (toldC d).desc a := ⟨ha, b ++ [0], by simp [toldC, cptr, hd]⟩
  rw [(cstr_iff _ _).2 h2] at h1
  exact (Option.some.inj h1).symm

/-- C124: when there is something to tell the function of the C program is called, and with the pointer it was registered with. -/
theorem C124_callback (f par : Nat) : fire { fn := some f, par := par } = some (f, par) := rfl

/-- C124 is violated: a null function is accepted as a callback (the C++ interface takes an empty one as none), and called at the next event. -/
theorem C124_violated_null_callback (env : List (Nat × Event) → Reply) (w : World) (a par ev : Nat) (p : Peer) (hk : w.at a = some (.peer p))
    (he : ∀ l, (env l).ok = true) :
    (useHandle env w (some a) (.addEvent p ev { fn := none, par := par })).2 = .done (.ret 1 .null) ∧ fire { fn := none, par := par } = none := by
  refine ⟨?_, rfl⟩
  rw [C124_yes_no env w a (.addEvent p ev { fn := none, par := par }) _ hk .addEvent trivial]
  simp [he]

/-- C124: a method of a C program gets exactly the request (shorter than 2 GB), and a response callback exactly the response. -/
theorem C124_request (r : Bytes) (h : r.length < 2147483648) :
    Block (requestC r).1 (requestC r).2 r ∧ Block (responseC r).1 (responseC r).2 r := by
  have e : toInt r.length = r.length := toInt_small _ h
  exact ⟨⟨e, .inr ⟨[0], rfl⟩⟩, ⟨e, .inr ⟨[0], rfl⟩⟩⟩

/-- C124: the response of a method of a C program is exactly the bytes it has given; without bytes it is the empty one the library has prepared. -/
theorem C124_response (resp : Mem) (len : Int) (r : Bytes) (h : Block resp len r) : responseOf [] resp len = some r := by
  unfold responseOf
  by_cases hl : 0 < len
  · rw [if_pos hl]; exact slice_of_block h
  · rw [if_neg hl]
    have : r.length = 0 := by have := h.1; omega
    rw [List.length_eq_zero_iff.1 this]

/-- C124 (partial: the library allocates the memory): the message about the state of the time is handed out completely. -/
theorem C124_status_partial (text : Bytes) (old : Option Bytes) (hm : text ≠ []) (hs : text.length < 2147483648) :
    timeStatus true text (.slot old) allocate4me = .ret text.length (.slot (some text)) := by
  have := C78_alloc_partial true old text hm hs
  simpa [timeStatus, hm, receiveAlloc] using this

example : timeStatus true [1, 2] (.slot none) 0 = .ret 2 (.slot (some [1, 2])) := by decide +kernel

/-- C124 is violated: with a maximal length the message is written over the pointer of the caller, and, if it is longer than a pointer, over what
follows. -/
theorem C124_violated_status (malloc : Bool) (text : Bytes) (old : Option Bytes) (len : Int) (hm : text ≠ []) (hs : text.length < 2147483648)
    (hl : text.length ≤ len) :
    timeStatus malloc text (.slot old) len = if 8 < text.length then .overflow else .clobber text.length := by
  have hp := List.length_pos_iff.2 hm
  have h1 : 0 < len := by omega
  have h2 : ¬ len = allocate4me := by unfold allocate4me; omega
  have h3 : ¬ len < text.length := by omega
  unfold timeStatus copyBuffer
  rw [toInt_small _ hs]
  simp [copyAs, fill, h1, h2, h3, hm]

end Ecal.Capi.Handle
