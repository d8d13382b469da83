import Verif.Shm.Names
import Verif.Mon.MonitorProps

/-!
# C128: objects in shared memory have names of their own
-/

namespace Ecal.Shm.Names

open Ecal

/-! ## Texts -/

theorem split_first {α : Type} {c : α} : ∀ {x y a b : List α}, c ∉ x → c ∉ y → x ++ c :: a = y ++ c :: b → x = y ∧ a = b
  | [], [], _, _, _, _, h => by simpa using h
  | [], y :: ys, _, _, _, hy, h => by
    simp only [List.nil_append, List.cons_append, List.cons.injEq] at h
    exact absurd (by rw [h.1]; simp) hy
  | x :: xs, [], _, _, hx, _, h => by
    simp only [List.nil_append, List.cons_append, List.cons.injEq] at h
    exact absurd (by rw [h.1]; simp) hx
  | x :: xs, y :: ys, a, b, hx, hy, h => by
    simp only [List.cons_append, List.cons.injEq] at h
    have := split_first (x := xs) (y := ys) (fun hh => hx (List.mem_cons_of_mem _ hh))
      (fun hh => hy (List.mem_cons_of_mem _ hh)) h.2
    exact ⟨by rw [h.1, this.1], this.2⟩

theorem split_last {α : Type} {c : α} {a b x y : List α} (hx : c ∉ x) (hy : c ∉ y)
    (h : a ++ c :: x = b ++ c :: y) : a = b ∧ x = y := by
  have h' := congrArg List.reverse h
  simp only [List.reverse_append, List.reverse_cons, List.append_assoc, List.singleton_append] at h'
  have := split_first (c := c) (x := x.reverse) (y := y.reverse) (by simpa using hx) (by simpa using hy) h'
  exact ⟨List.reverse_inj.1 this.2, List.reverse_inj.1 this.1⟩

theorem hexDigit_mem (n : Nat) : hexDigit n ∈ ['0', '1', '2', '3', '4', '5', '6', '7', '8', '9', 'a', 'b', 'c', 'd', 'e', 'f'] := by
  by_cases h : n < 16
  · have hall : ∀ a : Fin 16, hexDigit a.1 ∈ ['0', '1', '2', '3', '4', '5', '6', '7', '8', '9', 'a', 'b', 'c', 'd', 'e', 'f'] := by
      decide
    exact hall ⟨n, h⟩
  · unfold hexDigit
    rw [List.getD_eq_getElem?_getD, List.getElem?_eq_none (by simp; omega)]
    decide

theorem hexDigit_inj {n m : Nat} (hn : n < 16) (hm : m < 16) (h : hexDigit n = hexDigit m) : n = m := by
  have hall : ∀ a : Fin 16, ∀ b : Fin 16, hexDigit a.1 = hexDigit b.1 → a = b := by decide
  have := hall ⟨n, hn⟩ ⟨m, hm⟩ h
  exact congrArg Fin.val this

/-- The letters of hexadecimal numbers. -/
def Hex (l : Name) : Prop := ∀ c ∈ l, c ∈ ['0', '1', '2', '3', '4', '5', '6', '7', '8', '9', 'a', 'b', 'c', 'd', 'e', 'f']

theorem toHex_hex (n : Nat) : Hex (toHex n) := by
  induction n using Nat.strongRecOn with
  | _ n ih =>
    intro c hc
    rw [toHex] at hc
    by_cases h : n < 16
    · rw [dif_pos h] at hc
      rw [List.mem_singleton.1 hc]; exact hexDigit_mem n
    · rw [dif_neg h] at hc
      rcases List.mem_append.1 hc with hc | hc
      · exact ih (n / 16) (by omega) c hc
      · rw [List.mem_singleton.1 hc]; exact hexDigit_mem _

theorem toHex_ne_nil (n : Nat) : toHex n ≠ [] := by
  rw [toHex]; split <;> simp

theorem toHex_inj : ∀ (n m : Nat), toHex n = toHex m → n = m := by
  intro n
  induction n using Nat.strongRecOn with
  | _ n ih =>
    intro m h
    rw [toHex, toHex.eq_1 m] at h
    have len : ∀ k, (toHex k).length ≠ 0 := fun k hh => toHex_ne_nil k (List.length_eq_zero_iff.1 hh)
    by_cases hn : n < 16 <;> by_cases hm : m < 16
    · rw [dif_pos hn, dif_pos hm] at h
      simp only [List.cons.injEq, and_true] at h
      exact hexDigit_inj hn hm h
    · rw [dif_pos hn, dif_neg hm] at h
      have h1 := congrArg List.length h
      have := len (m / 16)
      simp only [List.length_append, List.length_singleton] at h1
      omega
    · rw [dif_neg hn, dif_pos hm] at h
      have h1 := congrArg List.length h
      have := len (n / 16)
      simp only [List.length_append, List.length_singleton] at h1
      omega
    · rw [dif_neg hn, dif_neg hm] at h
      have h1 := (List.append_inj' h rfl).1
      have h2 := (List.append_inj' h rfl).2
      simp only [List.cons.injEq, and_true] at h2
      have e1 := ih (n / 16) (by omega) (m / 16) h1
      have e2 := hexDigit_inj (by omega) (by omega) h2
      omega

theorem hex_us {l : Name} (h : Hex l) : '_' ∉ l := fun hh => absurd (h _ hh) (by decide)

theorem hex_ne {l : Name} (h : Hex l) {c : Char} (hc : c ∉ ['0', '1', '2', '3', '4', '5', '6', '7', '8', '9', 'a', 'b', 'c', 'd', 'e', 'f'])
    {m : Name} (hm : c ∈ m) : l ≠ m := fun hh => hc (h c (hh ▸ hm))

theorem dec_no (n : Nat) {c : Char} (hc : Mon.isDigit c = false) : c ∉ Mon.toDec n := fun hh => by
  rw [Mon.toDec_digits n c hh] at hc; exact absurd hc (by decide)

theorem dec_us (n : Nat) : '_' ∉ Mon.toDec n := dec_no n (by decide)

theorem dec_ne (n : Nat) {c : Char} (hc : Mon.isDigit c = false) {m : Name} (hm : c ∈ m) : Mon.toDec n ≠ m :=
  fun hh => dec_no n hc (hh ▸ hm)

/-! ## Specification -/

/-- The domain of an object, if it has one. -/
def Base.dom : Base → Option Name
  | .seg _ => none
  | .domain d => some d
  | .payload d _ => some d

def Obj.dom : Obj → Option Name
  | .file b => b.dom
  | .mutex b => b.dom
  | .event _ => none

/-- Names of registration domains that are harmless: something, without slash in front, not `ecal`, not `ecal_` and a
hexadecimal number, not ending like the name of a mutex or an event. -/
structure Harmless (d : Name) : Prop where
  empty : d ≠ []
  slash : d.head? ≠ Option.some '/'
  ecal  : d ≠ ['e', 'c', 'a', 'l']
  hex   : ∀ h, (∀ c ∈ h, c ∈ ['0', '1', '2', '3', '4', '5', '6', '7', '8', '9', 'a', 'b', 'c', 'd', 'e', 'f']) → d ≠ ['e', 'c', 'a', 'l', '_'] ++ h
  mtx   : ∀ x, d ≠ x ++ ['_', 'm', 't', 'x']
  evt   : ∀ x, d ≠ x ++ ['_', 'e', 'v', 't']

/-- No domain of the host is called like another one followed by a number. -/
def Apart (ds : List Name) : Prop := ∀ d ∈ ds, ∀ e ∈ ds, ∀ n : Nat, d ≠ e ++ '_' :: Mon.toDec n

/-! ## Names -/

theorem segName_inj {r q : Nat} (h : segName r = segName q) : r = q :=
  toHex_inj _ _ (List.append_cancel_left h)

theorem mem_hex {c : Char} (h : c ∈ ['0', '1', '2', '3', '4', '5', '6', '7', '8', '9', 'a', 'b', 'c', 'd', 'e', 'f']) :
    c ∈ ['0', '1', '2', '3', '4', '5', '6', '7', '8', '9', 'a', 'b', 'c', 'd', 'e', 'f'] := by
  have : ['0', '1', '2', '3', '4', '5', '6', '7', '8', '9', 'a', 'b', 'c', 'd', 'e', 'f'] = ['0', '1', '2', '3', '4', '5', '6', '7', '8', '9', 'a', 'b', 'c', 'd', 'e', 'f'] := by decide
  rw [this]; exact h

theorem segName_eq (r : Nat) : segName r = ['e', 'c', 'a', 'l'] ++ '_' :: toHex r := by
  have : ['e', 'c', 'a', 'l', '_'] = ['e', 'c', 'a', 'l'] ++ ['_'] := by decide
  rw [segName, this, List.append_assoc, List.singleton_append]

theorem payload_eq (d : Name) (n : Nat) : (Base.payload d n).name = d ++ '_' :: Mon.toDec n := by
  have : ['_'] = ['_'] := by decide
  rw [Base.name, this, List.append_assoc, List.singleton_append]

theorem mtx_eq (x : Name) : x ++ ['_', 'm', 't', 'x'] = x ++ '_' :: ['m', 't', 'x'] := rfl

theorem evt_eq (x : Name) : x ++ ['_', 'e', 'v', 't'] = x ++ '_' :: ['e', 'v', 't'] := rfl

theorem base_inj {ds : List Name} (hh : ∀ d ∈ ds, Harmless d) (ha : Apart ds) {a b : Base}
    (hda : ∀ d, a.dom = some d → d ∈ ds) (hdb : ∀ d, b.dom = some d → d ∈ ds) (h : a.name = b.name) : a = b := by
  have key : ∀ r d n, d ∈ ds → (Base.seg r).name ≠ (Base.payload d n).name := by
    intro r d n hd h
    rw [payload_eq, Base.name, segName_eq] at h
    exact (hh d hd).ecal (split_last (hex_us (toHex_hex r)) (dec_us n) h).1.symm
  have key2 : ∀ r d, d ∈ ds → (Base.seg r).name ≠ d := by
    intro r d hd h
    exact (hh d hd).hex (toHex r) (fun c hc => mem_hex (toHex_hex r c hc)) h.symm
  cases a with
  | seg r =>
    cases b with
    | seg q => rw [segName_inj h]
    | domain d => exact absurd h (key2 r d (hdb d rfl))
    | payload d n => exact absurd h (key r d n (hdb d rfl))
  | domain d =>
    cases b with
    | seg q => exact absurd h.symm (key2 q d (hda d rfl))
    | domain e => rw [show d = e from h]
    | payload e n => rw [payload_eq] at h; exact absurd h (ha d (hda d rfl) e (hdb e rfl) n)
  | payload d n =>
    cases b with
    | seg q => exact absurd h.symm (key q d n (hda d rfl))
    | domain e => rw [payload_eq] at h; exact absurd h.symm (ha e (hdb e rfl) d (hda d rfl) n)
    | payload e m =>
      rw [payload_eq, payload_eq] at h
      obtain ⟨h1, h2⟩ := split_last (dec_us n) (dec_us m) h
      rw [h1, Mon.toDec_inj _ _ h2]

/-- Names of files end neither like a mutex nor like an event. -/
theorem base_ends {a : Base} (hd : ∀ d, a.dom = some d → Harmless d) (x : Name) :
    a.name ≠ x ++ ['_', 'm', 't', 'x'] ∧ a.name ≠ x ++ ['_', 'e', 'v', 't'] := by
  cases a with
  | seg r =>
    rw [Base.name, segName_eq, mtx_eq, evt_eq]
    refine ⟨fun h => ?_, fun h => ?_⟩
    · exact hex_ne (toHex_hex r) (c := 'm') (by decide) (by decide) (split_last (hex_us (toHex_hex r)) (by decide) h).2
    · exact hex_ne (toHex_hex r) (c := 'v') (by decide) (by decide) (split_last (hex_us (toHex_hex r)) (by decide) h).2
  | domain d => exact ⟨(hd d rfl).mtx x, (hd d rfl).evt x⟩
  | payload d n =>
    rw [payload_eq, mtx_eq, evt_eq]
    refine ⟨fun h => ?_, fun h => ?_⟩
    · exact dec_ne n (c := 'm') (by decide) (by decide) (split_last (dec_us n) (by decide) h).2
    · exact dec_ne n (c := 'v') (by decide) (by decide) (split_last (dec_us n) (by decide) h).2

theorem sent_eq (r p : Nat) : (Event.sent r p).name = segName r ++ '_' :: Mon.toDec p := by
  have : ['_'] = ['_'] := by decide
  rw [Event.name, this, List.append_assoc, List.singleton_append]

theorem ack_eq (r p : Nat) : (Event.ack r p).name = (segName r ++ '_' :: Mon.toDec p) ++ '_' :: ['a', 'c', 'k'] := by
  have h1 : ['_'] = ['_'] := by decide
  have h2 : ['_', 'a', 'c', 'k'] = '_' :: ['a', 'c', 'k'] := by decide
  rw [Event.name, h1, h2, List.append_assoc (segName r), List.singleton_append]

theorem shutdown_eq (p : Nat) : (Event.shutdown p).name = ['e', 'c', 'a', 'l', '_', 's', 'h', 'u', 't', 'd', 'o', 'w', 'n', '_', 'p', 'r', 'o', 'c', 'e', 's', 's'] ++ '_' :: Mon.toDec p := by
  have : ['_'] = ['_'] := by decide
  rw [Event.name, this, List.append_assoc, List.singleton_append]

theorem seg_not_shutdown (r : Nat) : segName r ≠ ['e', 'c', 'a', 'l', '_', 's', 'h', 'u', 't', 'd', 'o', 'w', 'n', '_', 'p', 'r', 'o', 'c', 'e', 's', 's'] := by
  intro h
  have : ['e', 'c', 'a', 'l', '_', 's', 'h', 'u', 't', 'd', 'o', 'w', 'n', '_', 'p', 'r', 'o', 'c', 'e', 's', 's'] = ['e', 'c', 'a', 'l', '_'] ++ ['s', 'h', 'u', 't', 'd', 'o', 'w', 'n', '_', 'p', 'r', 'o', 'c', 'e', 's', 's'] := by decide
  rw [segName, this] at h
  exact hex_ne (toHex_hex r) (c := 's') (by decide) (by decide) (List.append_cancel_left h)

theorem event_inj {a b : Event} (h : a.name = b.name) : a = b := by
  have k1 : ∀ r p q s, (Event.sent r p).name ≠ (Event.ack q s).name := by
    intro r p q s h
    rw [sent_eq, ack_eq] at h
    exact dec_ne p (c := 'a') (by decide) (by decide) (split_last (dec_us p) (by decide) h).2
  have k2 : ∀ r p s, (Event.sent r p).name ≠ (Event.shutdown s).name := by
    intro r p s h
    rw [sent_eq, shutdown_eq] at h
    exact seg_not_shutdown r (split_last (dec_us p) (dec_us s) h).1
  have k3 : ∀ r p s, (Event.ack r p).name ≠ (Event.shutdown s).name := by
    intro r p s h
    rw [ack_eq, shutdown_eq] at h
    exact dec_ne s (c := 'a') (by decide) (by decide) (split_last (by decide) (dec_us s) h).2.symm
  cases a with
  | sent r p =>
    cases b with
    | sent q s =>
      rw [sent_eq, sent_eq] at h
      obtain ⟨h1, h2⟩ := split_last (dec_us p) (dec_us s) h
      rw [segName_inj h1, Mon.toDec_inj _ _ h2]
    | ack q s => exact absurd h (k1 _ _ _ _)
    | shutdown s => exact absurd h (k2 _ _ _)
  | ack r p =>
    cases b with
    | sent q s => exact absurd h.symm (k1 _ _ _ _)
    | ack q s =>
      rw [ack_eq, ack_eq] at h
      obtain ⟨h1, h2⟩ := split_last (dec_us p) (dec_us s) (List.append_cancel_right h)
      rw [segName_inj h1, Mon.toDec_inj _ _ h2]
    | shutdown s => exact absurd h (k3 _ _ _)
  | shutdown p =>
    cases b with
    | sent q s => exact absurd h.symm (k2 _ _ _)
    | ack q s => exact absurd h.symm (k3 _ _ _)
    | shutdown s =>
      rw [shutdown_eq, shutdown_eq] at h
      rw [Mon.toDec_inj _ _ (split_last (dec_us p) (dec_us s) h).2]

theorem slash_of {n : Name} (h1 : n ≠ []) (h2 : n.head? ≠ some '/') : slash n = '/' :: n := by
  cases n with
  | nil => exact absurd rfl h1
  | cons c n =>
    have : c ≠ '/' := fun hh => h2 (by rw [hh]; rfl)
    rw [slash, if_pos this]

theorem base_slash {a : Base} (hd : ∀ d, a.dom = some d → Harmless d) : slash a.name = '/' :: a.name := by
  cases a with
  | seg r => exact slash_of (by simp [Base.name, segName]) (by simp [Base.name, segName])
  | domain d => exact slash_of (hd d rfl).empty (hd d rfl).slash
  | payload d n =>
    have h := hd d rfl
    refine slash_of (by simp [Base.name]) ?_
    rw [payload_eq]
    cases d with
    | nil => exact absurd rfl h.empty
    | cons c d => exact h.slash

theorem event_slash (e : Event) (x : Name) : slash (e.name ++ x) = '/' :: (e.name ++ x) := by
  cases e <;> exact slash_of (by simp [Event.name, segName]) (by simp [Event.name, segName])

/-- **C128 (names of their own).** On a host whose registration domains have harmless names, any two objects in
shared memory – memory files of publishers, queues and payloads of the registration, the mutexes of all of them, events
to and from subscribing processes, shutdown events – have different names, for all numbers drawn and all process ids. -/
theorem C128_distinct_partial (ds : List Name) (hh : ∀ d ∈ ds, Harmless d) (ha : Apart ds) (a b : Obj)
    (hda : ∀ d, a.dom = some d → d ∈ ds) (hdb : ∀ d, b.dom = some d → d ∈ ds) (h : a.os = b.os) : a = b := by
  cases a with
  | file x =>
    have sx := base_slash (a := x) (fun d hd => hh d (hda d hd))
    have ex := base_ends (a := x) (fun d hd => hh d (hda d hd))
    cases b with
    | file y =>
      have sy := base_slash (a := y) (fun d hd => hh d (hdb d hd))
      simp only [Obj.os, sx, sy, List.cons.injEq, true_and] at h
      rw [base_inj hh ha hda hdb h]
    | mutex y =>
      have sy := base_slash (a := y) (fun d hd => hh d (hdb d hd))
      simp only [Obj.os, sx, sy, List.cons_append, List.cons.injEq, true_and] at h
      exact absurd h (ex _).1
    | event e =>
      simp only [Obj.os, sx, event_slash, List.cons.injEq, true_and] at h
      exact absurd h (ex _).2
  | mutex x =>
    have sx := base_slash (a := x) (fun d hd => hh d (hda d hd))
    cases b with
    | file y =>
      have sy := base_slash (a := y) (fun d hd => hh d (hdb d hd))
      have ey := base_ends (a := y) (fun d hd => hh d (hdb d hd))
      simp only [Obj.os, sx, sy, List.cons_append, List.cons.injEq, true_and] at h
      exact absurd h.symm (ey _).1
    | mutex y =>
      have sy := base_slash (a := y) (fun d hd => hh d (hdb d hd))
      simp only [Obj.os, sx, sy, List.cons_append, List.cons.injEq, true_and] at h
      rw [base_inj hh ha hda hdb (List.append_cancel_right h)]
    | event e =>
      simp only [Obj.os, sx, event_slash, List.cons_append, List.cons.injEq, true_and] at h
      rw [mtx_eq, evt_eq] at h
      exact absurd (split_last (by decide) (by decide) h).2 (by decide)
  | event e =>
    cases b with
    | file y =>
      have sy := base_slash (a := y) (fun d hd => hh d (hdb d hd))
      have ey := base_ends (a := y) (fun d hd => hh d (hdb d hd))
      simp only [Obj.os, sy, event_slash, List.cons.injEq, true_and] at h
      exact absurd h.symm (ey _).2
    | mutex y =>
      have sy := base_slash (a := y) (fun d hd => hh d (hdb d hd))
      simp only [Obj.os, sy, event_slash, List.cons_append, List.cons.injEq, true_and] at h
      rw [mtx_eq, evt_eq] at h
      exact absurd (split_last (by decide) (by decide) h).2 (by decide)
    | event f =>
      simp only [Obj.os, event_slash, List.cons.injEq, true_and] at h
      rw [event_inj (List.append_cancel_right h)]

/-- The default domain is harmless. -/
theorem default_harmless : Harmless ['e', 'c', 'a', 'l', '_', 'm', 'o', 'n'] where
  empty := by decide
  slash := by decide
  ecal := by decide
  hex := by
    intro h hx hh
    have : ['e', 'c', 'a', 'l', '_', 'm', 'o', 'n'] = ['e', 'c', 'a', 'l', '_'] ++ ['m', 'o', 'n'] := by decide
    rw [this] at hh
    have := List.append_cancel_left hh
    exact absurd (hx 'm' (by rw [← this]; decide)) (by decide)
  mtx := by
    intro x h
    have e : ['e', 'c', 'a', 'l', '_', 'm', 'o', 'n'] = ['e', 'c', 'a', 'l'] ++ '_' :: ['m', 'o', 'n'] := by decide
    rw [mtx_eq, e] at h
    exact absurd (split_last (by decide) (by decide) h).2 (by decide)
  evt := by
    intro x h
    have e : ['e', 'c', 'a', 'l', '_', 'm', 'o', 'n'] = ['e', 'c', 'a', 'l'] ++ '_' :: ['m', 'o', 'n'] := by decide
    rw [evt_eq, e] at h
    exact absurd (split_last (by decide) (by decide) h).2 (by decide)

/-- **C128 (as configured by default).** With the default registration domain all objects have names of their own. -/
theorem C128_default (a b : Obj) (hda : ∀ d, a.dom = some d → d = ['e', 'c', 'a', 'l', '_', 'm', 'o', 'n'])
    (hdb : ∀ d, b.dom = some d → d = ['e', 'c', 'a', 'l', '_', 'm', 'o', 'n']) (h : a.os = b.os) : a = b := by
  refine C128_distinct_partial [['e', 'c', 'a', 'l', '_', 'm', 'o', 'n']] ?_ ?_ a b (fun d hd => by rw [hda d hd]; simp)
    (fun d hd => by rw [hdb d hd]; simp) h
  · intro d hd
    rw [List.mem_singleton.1 hd]; exact default_harmless
  · intro d hd e he n hh
    rw [List.mem_singleton.1 hd, List.mem_singleton.1 he] at hh
    have := congrArg List.length hh
    simp only [List.length_append, List.length_cons] at this
    omega

/-- Names as they look like in `/dev/shm`. -/
example : String.ofList (Obj.file (.seg 0x1f0a)).os = "/ecal_1f0a" ∧
    String.ofList (Obj.mutex (.payload ['e', 'c', 'a', 'l', '_', 'm', 'o', 'n'] 907)).os = "/ecal_mon_907_mtx" ∧
    String.ofList (Obj.event (.ack 0xa 42)).os = "/ecal_a_42_ack_evt" ∧
    String.ofList (Obj.event (.shutdown 42)).os = "/ecal_shutdown_process_42_evt" := by decide +kernel

/-- **C128 (both sides meet).** The events a subscribing process opens for a file it was told of are those the publisher
opens for that process, and the event another process sets to stop a process is the one that process looks at. -/
theorem C128_meet (r pid : Nat) :
    readerEvents (Base.seg r).name pid = ((Obj.event (.sent r pid)).os, (Obj.event (.ack r pid)).os) ∧
    stopName pid = (Obj.event (.shutdown pid)).os := ⟨rfl, rfl⟩

/-! ### Where names clash -/

/-- **C128 is violated: a domain named like a publisher's file.** Whatever number a publisher draws, there is a domain
name without any special letter that is the name of its file. -/
theorem C128_violated_domain (r : Nat) :
    (Obj.file (.domain (['e', 'c', 'a', 'l', '_'] ++ toHex r))).os = (Obj.file (.seg r)).os := rfl

/-- **C128 is violated: the domain `ecal`.** The payloads of the registration domain `ecal` are named like the files of
publishers: payload 10 is the file of the publisher that draws 16. -/
theorem C128_violated_ecal : (Obj.file (.payload ['e', 'c', 'a', 'l'] 10)).os = (Obj.file (.seg 16)).os := by
  decide +kernel

/-- **C128 is violated: domains side by side.** A domain named like another one with a number is a payload of the other. -/
theorem C128_violated_nested (d : Name) (n : Nat) :
    (Obj.file (.domain (d ++ ['_'] ++ Mon.toDec n))).os = (Obj.file (.payload d n)).os := rfl

/-- **C128 is violated: a domain named like a mutex.** -/
theorem C128_violated_mutex (b : Base) (hn : b.name ≠ []) :
    (Obj.file (.domain (b.name ++ ['_', 'm', 't', 'x']))).os = (Obj.mutex b).os := by
  change slash (b.name ++ ['_', 'm', 't', 'x']) = slash b.name ++ ['_', 'm', 't', 'x']
  generalize b.name = n at hn
  cases n with
  | nil => exact absurd rfl hn
  | cons c n =>
    by_cases h : c = '/' <;> simp [slash, h]

/-! ## Publishers and subscribers -/

/-- What should happen: every publisher has a file of its own. -/
structure Sp where
  alive : Nat → Bool := fun _ => false
  said  : Nat → Option (List Nat) := fun _ => none
  heard : Nat → Option Nat := fun _ => none

def spStep (s : Sp) : Op → Sp × Out
  | .create p _ =>
    ({ s with alive := fun x => if x = p then true else s.alive x, said := fun x => if x = p then none else s.said x }, .none)
  | .write p d =>
    if s.alive p = true then ({ s with said := fun x => if x = p then some d else s.said x }, .none) else (s, .failed)
  | .destroy p =>
    if s.alive p = true then ({ s with alive := fun x => if x = p then false else s.alive x }, .none) else (s, .failed)
  | .crash p => ({ s with alive := fun x => if x = p then false else s.alive x }, .none)
  | .attach c p =>
    if s.alive p = true then ({ s with heard := fun x => if x = c then some p else s.heard x }, .none) else (s, .failed)
  | .read c =>
    match s.heard c with
    | some p => (s, .got (s.said p))
    | none => (s, .failed)

/-- What the operations of a history answer. -/
def outs (s : Sys) : List Op → List Out
  | [] => []
  | o :: os => (step s o).2 :: outs (step s o).1 os

def spOuts (s : Sp) : List Op → List Out
  | [] => []
  | o :: os => (spStep s o).2 :: spOuts (spStep s o).1 os

/-- The files created in a history: publisher and number drawn. -/
def creates : List Op → List (Nat × Nat)
  | [] => []
  | .create p r :: os => (p, r) :: creates os
  | .write .. :: os => creates os
  | .destroy .. :: os => creates os
  | .crash .. :: os => creates os
  | .attach .. :: os => creates os
  | .read .. :: os => creates os

/-- The invariant: `f` is the inode of each publisher that was ever created, `dn` the list of them. -/
structure Own (f : Nat → Nat) (dn : List (Nat × Nat)) (s : Sys) (sp : Sp) : Prop where
  low   : ∀ p r, (p, r) ∈ dn → f p < s.next
  inj   : ∀ p r q t, (p, r) ∈ dn → (q, t) ∈ dn → f p = f q → p = q
  said  : ∀ p r, (p, r) ∈ dn → s.content (f p) = sp.said p
  live  : ∀ p, sp.alive p = true → ∃ r, (p, r) ∈ dn ∧ s.pubs p = some (slash (segName r), f p) ∧
            s.dir.find (slash (segName r)) = some (f p)
  dead  : ∀ p, sp.alive p = false → s.pubs p = none
  hears : ∀ c, s.subs c = (sp.heard c).map f
  known : ∀ c p, sp.heard c = some p → ∃ r, (p, r) ∈ dn
  names : ∀ r i, s.dir.find (slash (segName r)) = some i → ∃ p, (p, r) ∈ dn

theorem file_inj {r t : Nat} (h : slash (segName r) = slash (segName t)) : r = t := by
  have h1 := base_slash (a := .seg r) (fun d hd => by simp [Base.dom] at hd)
  have h2 := base_slash (a := .seg t) (fun d hd => by simp [Base.dom] at hd)
  simp only [Base.name] at h1 h2
  rw [h1, h2] at h
  exact segName_inj (List.cons.inj h).2

theorem own_step {f : Nat → Nat} {dn : List (Nat × Nat)} {s : Sys} {sp : Sp} (h : Own f dn s sp)
    (hd : (dn.map Prod.snd).Nodup) (o : Op) (hp : ∀ p r, o = .create p r → (∀ q t, (q, t) ∈ dn → q ≠ p ∧ t ≠ r)) :
    (step s o).2 = (spStep sp o).2 ∧ ∃ g, Own g (dn ++ creates [o]) (step s o).1 (spStep sp o).1 := by
  have uniq : ∀ p q r, (p, r) ∈ dn → (q, r) ∈ dn → p = q := by
    intro p q r h1 h2
    clear h hp
    induction dn with
    | nil => simp at h1
    | cons x xs ih =>
      simp only [List.map_cons, List.nodup_cons, List.mem_map, not_exists, not_and] at hd
      rcases List.mem_cons.1 h1 with e1 | m1 <;> rcases List.mem_cons.1 h2 with e2 | m2
      · rw [← e2] at e1; exact congrArg Prod.fst e1
      · exact absurd (by rw [← e1]) (hd.1 _ m2)
      · exact absurd (by rw [← e2]) (hd.1 _ m1)
      · exact ih hd.2 m1 m2
  cases o with
  | create p r =>
    have hnew := hp p r rfl
    have hfind : s.dir.find (slash (segName r)) = none := by
      cases hf : s.dir.find (slash (segName r)) with
      | none => rfl
      | some i =>
        obtain ⟨q, hq⟩ := h.names r i hf
        exact absurd rfl (hnew q r hq).2
    have hst : step s (.create p r) =
        ({ s with dir := s.dir.set (slash (segName r)) s.next, next := s.next + 1, content := put s.content s.next none,
                  pubs := put s.pubs p (some (slash (segName r), s.next)) }, .none) := by
      simp only [step, openOrCreate, hfind]
    rw [hst]
    refine ⟨rfl, fun x => if x = p then s.next else f x, ?_⟩
    have hne : ∀ q t, (q, t) ∈ dn → q ≠ p := fun q t hq => (hnew q t hq).1
    have hmem : ∀ q t, (q, t) ∈ dn ++ creates [.create p r] → (q, t) ∈ dn ∨ (q = p ∧ t = r) := by
      intro q t hq
      simpa [creates] using hq
    constructor
    · intro q t hq
      rcases hmem q t hq with hq | ⟨rfl, rfl⟩
      · simp only [if_neg (hne q t hq)]; have := h.low q t hq; omega
      · simp
    · intro q t q' t' hq hq' he
      rcases hmem q t hq with hm | ⟨e1, e2⟩ <;> rcases hmem q' t' hq' with hm' | ⟨e1', e2'⟩
      · simp only [if_neg (hne q t hm), if_neg (hne q' t' hm')] at he
        exact h.inj q t q' t' hm hm' he
      · simp only [if_neg (hne q t hm), if_pos e1'] at he; have := h.low q t hm; omega
      · simp only [if_neg (hne q' t' hm'), if_pos e1] at he; have := h.low q' t' hm'; omega
      · rw [e1, e1']
    · intro q t hq
      rcases hmem q t hq with hq | ⟨rfl, rfl⟩
      · have h1 := h.low q t hq
        simp only [if_neg (hne q t hq), put, spStep]
        rw [if_neg (by omega)]
        exact h.said q t hq
      · simp [put, spStep]
    · intro q hq
      by_cases e : q = p
      · subst e
        exact ⟨r, by simp [creates], by simp [put], by simp⟩
      · simp only [spStep, if_neg e] at hq
        obtain ⟨t, h1, h2, h3⟩ := h.live q hq
        refine ⟨t, List.mem_append_left _ h1, by simp only [put, if_neg e]; exact h2, ?_⟩
        rw [AMap.find_set_ne _ _ _ _ (fun hh => (hnew q t h1).2 (file_inj hh).symm)]
        simp only [if_neg e]; exact h3
    · intro q hq
      by_cases e : q = p
      · simp [spStep, e] at hq
      · simp only [spStep, if_neg e] at hq
        simp only [put, if_neg e]; exact h.dead q hq
    · intro c
      show s.subs c = (sp.heard c).map _
      rw [h.hears c]
      cases hc : sp.heard c with
      | none => rfl
      | some q =>
        obtain ⟨t, ht⟩ := h.known c q hc
        simp [if_neg (hne q t ht)]
    · intro c q hc
      obtain ⟨t, ht⟩ := h.known c q hc
      exact ⟨t, List.mem_append_left _ ht⟩
    · intro t i hf
      by_cases e : t = r
      · exact ⟨p, by simp [creates, e]⟩
      · rw [AMap.find_set_ne _ _ _ _ (fun hh => e (file_inj hh).symm)] at hf
        obtain ⟨q, hq⟩ := h.names t i hf
        exact ⟨q, List.mem_append_left _ hq⟩
  | write p d =>
    simp only [creates, List.append_nil]
    cases ha : sp.alive p with
    | false =>
      have hs : step s (.write p d) = (s, .failed) := by simp only [step, h.dead p ha]
      have hs' : spStep sp (.write p d) = (sp, .failed) := by simp [spStep, ha]
      rw [hs, hs']; exact ⟨rfl, f, h⟩
    | true =>
      obtain ⟨r, h1, h2, h3⟩ := h.live p ha
      have hs : step s (.write p d) = ({ s with content := put s.content (f p) (some d) }, .none) := by
        simp only [step, h2]
      have hs' : spStep sp (.write p d) = ({ sp with said := fun x => if x = p then some d else sp.said x }, .none) := by
        simp [spStep, ha]
      rw [hs, hs']
      refine ⟨rfl, f, { h with said := ?_ }⟩
      intro q t hq
      by_cases e : q = p
      · simp [put, e]
      · have : f q ≠ f p := fun hh => e (h.inj q t p r hq h1 hh)
        simp only [put, if_neg this, if_neg e]
        exact h.said q t hq
  | destroy p =>
    simp only [creates, List.append_nil]
    cases ha : sp.alive p with
    | false =>
      have hs : step s (.destroy p) = (s, .failed) := by simp only [step, h.dead p ha]
      have hs' : spStep sp (.destroy p) = (sp, .failed) := by simp [spStep, ha]
      rw [hs, hs']; exact ⟨rfl, f, h⟩
    | true =>
      obtain ⟨r, h1, h2, h3⟩ := h.live p ha
      have hs : step s (.destroy p) = ({ s with dir := s.dir.erase (slash (segName r)), pubs := put s.pubs p none }, .none) := by
        simp only [step, h2]
      have hs' : spStep sp (.destroy p) = ({ sp with alive := fun x => if x = p then false else sp.alive x }, .none) := by
        simp [spStep, ha]
      rw [hs, hs']
      refine ⟨rfl, f, { h with live := ?_, dead := ?_, names := ?_ }⟩
      · intro q hq
        by_cases e : q = p
        · simp [e] at hq
        · simp only [if_neg e] at hq
          obtain ⟨t, g1, g2, g3⟩ := h.live q hq
          refine ⟨t, g1, by simp only [put, if_neg e]; exact g2, ?_⟩
          have : slash (segName r) ≠ slash (segName t) := by
            intro hh
            have := file_inj hh
            subst this
            exact e (uniq q p r g1 h1)
          rw [AMap.find_erase, if_neg this]; exact g3
      · intro q hq
        by_cases e : q = p
        · simp [put, e]
        · simp only [if_neg e] at hq
          simp only [put, if_neg e]; exact h.dead q hq
      · intro t i hf
        rw [AMap.find_erase] at hf
        split at hf
        · simp at hf
        · exact h.names t i hf
  | crash p =>
    simp only [creates, List.append_nil]
    refine ⟨rfl, f, { h with live := ?_, dead := ?_ }⟩
    · intro q hq
      by_cases e : q = p
      · simp [spStep, e] at hq
      · simp only [spStep, if_neg e] at hq
        obtain ⟨t, g1, g2, g3⟩ := h.live q hq
        exact ⟨t, g1, by simp only [step, put, if_neg e]; exact g2, g3⟩
    · intro q hq
      by_cases e : q = p
      · simp [step, put, e]
      · simp only [spStep, if_neg e] at hq
        simp only [step, put, if_neg e]; exact h.dead q hq
  | attach c p =>
    simp only [creates, List.append_nil]
    cases ha : sp.alive p with
    | false =>
      have hs : step s (.attach c p) = (s, .failed) := by simp only [step, h.dead p ha]
      have hs' : spStep sp (.attach c p) = (sp, .failed) := by simp [spStep, ha]
      rw [hs, hs']; exact ⟨rfl, f, h⟩
    | true =>
      obtain ⟨r, h1, h2, h3⟩ := h.live p ha
      have hs : step s (.attach c p) = ({ s with subs := put s.subs c (some (f p)) }, .none) := by
        simp only [step, h2, h3]
      have hs' : spStep sp (.attach c p) = ({ sp with heard := fun x => if x = c then some p else sp.heard x }, .none) := by
        simp [spStep, ha]
      rw [hs, hs']
      refine ⟨rfl, f, { h with hears := ?_, known := ?_ }⟩
      · intro x
        by_cases e : x = c
        · simp [put, e]
        · simp only [put, if_neg e]; exact h.hears x
      · intro x q hx
        by_cases e : x = c
        · simp only [if_pos e, Option.some.injEq] at hx
          subst hx; exact ⟨r, h1⟩
        · simp only [if_neg e] at hx; exact h.known x q hx
  | read c =>
    simp only [creates, List.append_nil]
    have hc := h.hears c
    cases hh : sp.heard c with
    | none =>
      rw [hh] at hc
      have hs : step s (.read c) = (s, .failed) := by simp only [step, hc, Option.map_none]
      have hs' : spStep sp (.read c) = (sp, .failed) := by simp only [spStep, hh]
      rw [hs, hs']; exact ⟨rfl, f, h⟩
    | some q =>
      rw [hh] at hc
      obtain ⟨t, ht⟩ := h.known c q hh
      have hs : step s (.read c) = (s, .got (s.content (f q))) := by simp only [step, hc, Option.map_some]
      have hs' : spStep sp (.read c) = (sp, .got (sp.said q)) := by simp only [spStep, hh]
      rw [hs, hs', h.said q t ht]; exact ⟨rfl, f, h⟩

theorem creates_cons (o : Op) (os : List Op) : creates (o :: os) = creates [o] ++ creates os := by
  cases o <;> rfl

theorem own_run (ops : List Op) : ∀ (f : Nat → Nat) (dn : List (Nat × Nat)) (s : Sys) (sp : Sp), Own f dn s sp →
    ((dn ++ creates ops).map Prod.fst).Nodup → ((dn ++ creates ops).map Prod.snd).Nodup → outs s ops = spOuts sp ops := by
  induction ops with
  | nil => intros; rfl
  | cons o os ih =>
    intro f dn s sp h h1 h2
    rw [creates_cons, ← List.append_assoc] at h1 h2
    have g2 : (dn.map Prod.snd).Nodup := by
      rw [List.map_append, List.map_append] at h2
      exact (List.nodup_append.1 (List.nodup_append.1 h2).1).1
    obtain ⟨e1, g, hg⟩ := own_step h g2 o (by
      intro p r ho q t hq
      subst ho
      rw [List.map_append, List.map_append] at h1 h2
      have k1 := (List.nodup_append.1 (List.nodup_append.1 h1).1).2.2
      have k2 := (List.nodup_append.1 (List.nodup_append.1 h2).1).2.2
      exact ⟨k1 q (List.mem_map.2 ⟨_, hq, rfl⟩) p (by simp [creates]),
        k2 t (List.mem_map.2 ⟨_, hq, rfl⟩) r (by simp [creates])⟩)
    simp only [outs, spOuts, e1]
    rw [ih g _ _ _ hg h1 h2]

/-- **C128 (files of their own).** If no number is drawn twice, then in every history of publishers being created,
sending, being destroyed and dying, and of subscriptions opening the files announced and reading, every reading gets the
last payload of the publisher the subscription has opened, and opening works exactly as long as that publisher lives.
(`creates` counts each creation as a publisher of its own.) -/
theorem C128_private_partial (ops : List Op) (hp : ((creates ops).map Prod.fst).Nodup)
    (hr : ((creates ops).map Prod.snd).Nodup) : outs {} ops = spOuts {} ops := by
  refine own_run ops (fun _ => 0) [] {} {} ?_ hp hr
  constructor <;> simp

/-- Two publishers, two subscriptions. -/
example : outs {} [.create 0 7, .create 1 23, .attach 5 0, .attach 6 1, .write 1 [66], .write 0 [65], .read 5, .read 6,
      .destroy 1, .attach 7 1, .read 6] =
    [.none, .none, .none, .none, .none, .none, .got (some [65]), .got (some [66]), .none, .failed, .got (some [66])] := by
  decide +kernel

/-- **C128 is violated: a number drawn twice.** Two living publishers that draw the same number write into one file:
who has subscribed to the first gets what the second sends to its own topic. -/
theorem C128_violated_same_number (r : Nat) (d e : List Nat) :
    outs {} [.create 0 r, .attach 5 0, .write 0 d, .create 1 r, .write 1 e, .read 5] =
      [.none, .none, .none, .none, .none, .got (some e)] := by
  simp [outs, step, openOrCreate, put, AMap.set, AMap.find]

/-- **C128 is violated: taken away.** When one of them is destroyed, the file of the other one is gone: nobody can subscribe
to it any more. -/
theorem C128_violated_taken_away (r : Nat) :
    outs {} [.create 0 r, .create 1 r, .destroy 1, .attach 5 0] = [.none, .none, .none, .failed] := by
  simp [outs, step, openOrCreate, put, AMap.set, AMap.find, AMap.erase]

/-- **C128 is violated: left over.** The file of a publisher whose process died stays; a publisher that draws its number
later, even after a long time, sends to those who had subscribed to the dead one. -/
theorem C128_violated_left_over (r : Nat) (e : List Nat) :
    outs {} [.create 0 r, .attach 5 0, .crash 0, .create 1 r, .write 1 e, .read 5] =
      [.none, .none, .none, .none, .none, .got (some e)] := by
  simp [outs, step, openOrCreate, put, AMap.set, AMap.find]

end Ecal.Shm.Names
