import Verif.Udp.Groups

/-!
# C25 (multicast membership), C26 (TCP reception), C61 (concurrent creation)
-/

namespace Ecal.Udp

variable {T A : Type} [DecidableEq T] [DecidableEq A]

/-- Number of live subscribers mapped to group `a`. -/
def users (addr : T → A) (live : List (Nat × T)) (a : A) : Nat :=
  (live.filter (fun p => addr p.2 == a)).length

theorem users_cons (addr : T → A) (live : List (Nat × T)) (a : A) (p : Nat × T) :
    users addr (p :: live) a = users addr live a + if addr p.2 = a then 1 else 0 := by
  unfold users
  by_cases h : addr p.2 = a <;> simp [List.filter_cons, h]

theorem users_erase (addr : T → A) (live : List (Nat × T)) (a : A) (id : Nat) (t : T)
    (hn : (AMap.keys live).Nodup) (hf : AMap.find live id = some t) :
    users addr live a = users addr (AMap.erase live id) a + if addr t = a then 1 else 0 := by
  induction live with
  | nil => simp at hf
  | cons p live ih =>
    obtain ⟨k, x⟩ := p
    rw [AMap.keys_cons, List.nodup_cons] at hn
    rw [AMap.find_cons] at hf
    by_cases hk : k = id
    · simp only [hk, if_true, Option.some.injEq] at hf
      subst hf
      have : AMap.erase ((k, x) :: live) id = AMap.erase live id := by simp [AMap.erase, hk]
      rw [this, AMap.erase_of_not_mem (by rw [← hk]; exact hn.1), users_cons]
    · rw [if_neg hk] at hf
      have : AMap.erase ((k, x) :: live) id = (k, x) :: AMap.erase live id := by simp [AMap.erase, hk]
      rw [this, users_cons, users_cons, ih hn.2 hf]
      omega

structure UdpInv (addr : T → A) (base : A) (s : UdpLayer T A) : Prop where
  nodup  : (AMap.keys s.live).Nodup
  counts : ∀ a, s.counts.find a = if users addr s.live a = 0 then none else some (users addr s.live a)
  joined : ∀ a, a ≠ base → (a ∈ s.joined ↔ users addr s.live a ≠ 0)

theorem mem_join (a x : A) (l : List A) : x ∈ join a l ↔ x = a ∨ x ∈ l := by
  unfold join
  split
  · constructor
    · exact Or.inr
    · rintro (rfl | h) <;> assumption
  · simp

theorem mem_leave (a x : A) (l : List A) : x ∈ leave a l ↔ x ∈ l ∧ x ≠ a := by
  simp [leave]

theorem UdpInv.step {addr : T → A} {base : A} {s : UdpLayer T A} (h : UdpInv addr base s)
    (op : SubOp T) : UdpInv addr base (udpStep addr base s op) := by
  obtain ⟨hn, hc, hj⟩ := h
  cases op with
  | create id t =>
    simp only [udpStep]
    cases ht : topicOf s.live id with
    | some _ => exact ⟨hn, hc, hj⟩
    | none =>
      have hn' : (AMap.keys ((id, t) :: s.live)).Nodup := by
        rw [AMap.keys_cons, List.nodup_cons]
        exact ⟨(AMap.find_none_iff _ _).1 ht, hn⟩
      -- starting the receiver joins the base address only
      have key : ∀ s0 : UdpLayer T A, s0.counts = s.counts →
          (∀ a, a ≠ base → (a ∈ s0.joined ↔ a ∈ s.joined)) →
          UdpInv addr base { (match s0.counts.find (addr t) with
            | none => { s0 with joined := join (addr t) s0.joined, counts := s0.counts.set (addr t) 1 }
            | some n => { s0 with counts := s0.counts.set (addr t) (n + 1) } : UdpLayer T A) with
              live := (id, t) :: s.live } := by
        intro s0 e0 e1
        rw [e0, hc (addr t)]
        by_cases hu : users addr s.live (addr t) = 0
        · simp only [hu, if_true]
          refine ⟨hn', ?_, ?_⟩
          · intro a
            simp only [users_cons]
            by_cases ha : addr t = a
            · subst ha; simp [hu]
            · rw [AMap.find_set_ne _ _ _ _ ha, hc a]; simp [ha]
          · intro a hb
            simp only [users_cons, mem_join]
            rw [e1 a hb, hj a hb]
            by_cases ha : addr t = a
            · simp [ha]
            · simp [ha, Ne.symm ha]
        · simp only [hu, if_false]
          refine ⟨hn', ?_, ?_⟩
          · intro a
            simp only [users_cons]
            by_cases ha : addr t = a
            · subst ha; simp
            · rw [AMap.find_set_ne _ _ _ _ ha, hc a]; simp [ha]
          · intro a hb
            simp only [users_cons]
            rw [e1 a hb, hj a hb]
            by_cases ha : addr t = a
            · subst ha; simp [hu]
            · simp [ha]
      unfold udpAdd
      refine key (if s.started then s else { s with started := true, joined := join base s.joined })
        (by split <;> rfl) ?_
      intro a hb
      split
      · exact Iff.rfl
      · simp [mem_join, hb]
  | destroy id =>
    simp only [udpStep]
    cases ht : topicOf s.live id with
    | none => exact ⟨hn, hc, hj⟩
    | some t =>
      have hu := users_erase addr s.live (id := id) (t := t) (hn := hn) (hf := ht)
      have hpos : users addr s.live (addr t) ≠ 0 := by have := hu (addr t); simp at this; omega
      have hn' := AMap.nodup_erase hn id
      simp only [udpRem, hc (addr t), hpos, if_false]
      by_cases h1 : users addr s.live (addr t) - 1 = 0
      · rw [if_pos h1]
        refine ⟨hn', ?_, ?_⟩
        · intro a
          have := hu a
          by_cases ha : addr t = a
          · subst ha
            simp at this
            simp only [AMap.find_erase_self]
            rw [if_pos (by omega)]
          · simp only [ha, if_false, Nat.add_zero] at this
            simp only [AMap.find_erase_ne _ _ _ ha, hc a, this]
        · intro a hb
          have := hu a
          simp only [mem_leave, hj a hb]
          by_cases ha : addr t = a
          · subst ha
            simp at this
            constructor
            · intro h; exact absurd rfl h.2
            · intro h; omega
          · simp only [ha, if_false, Nat.add_zero] at this
            rw [← this]
            exact ⟨fun h => h.1, fun h => ⟨h, Ne.symm ha⟩⟩
      · rw [if_neg h1]
        refine ⟨hn', ?_, ?_⟩
        · intro a
          have := hu a
          by_cases ha : addr t = a
          · subst ha
            simp at this
            simp only [AMap.find_set_self]
            rw [if_neg (by omega)]
            congr 1; omega
          · simp only [ha, if_false, Nat.add_zero] at this
            simp only [AMap.find_set_ne _ _ _ _ ha, hc a, this]
        · intro a hb
          have := hu a
          simp only [hj a hb]
          by_cases ha : addr t = a
          · subst ha; simp at this; omega
          · simp only [ha, if_false, Nat.add_zero] at this; rw [this]

theorem UdpInv.run {addr : T → A} {base : A} {s : UdpLayer T A} (h : UdpInv addr base s)
    (ops : List (SubOp T)) : UdpInv addr base (udpRun addr base s ops) := by
  induction ops generalizing s with
  | nil => exact h
  | cons op ops ih => exact ih (h.step op)

/-- **C25.** In every history of creating and destroying subscribers (calls not overlapping)
the UDP layer is a member of a group (other than the base address, which is always joined)
exactly while a live subscriber's topic maps to the group — also when several topics share a
group. -/
theorem C25_membership (addr : T → A) (base : A) (h : List (SubOp T)) (a : A) (ha : a ≠ base) :
    let s := udpRun addr base {} h
    a ∈ s.joined ↔ ∃ id t, (id, t) ∈ s.live ∧ addr t = a := by
  intro s
  have hinv : UdpInv addr base s :=
    UdpInv.run (s := {}) ⟨by simp, by intro a; simp [users], by intro a _; simp [users]⟩ h
  rw [hinv.joined a ha]
  unfold users
  rw [Ne, List.length_eq_zero_iff, List.filter_eq_nil_iff]
  simp only [beq_iff_eq]
  constructor
  · intro hx
    apply Classical.byContradiction
    intro hne
    apply hx
    rintro ⟨id, t⟩ hm heq
    exact hne ⟨id, t, hm, heq⟩
  · rintro ⟨id, t, hm, heq⟩ hx
    exact hx (id, t) hm heq

/-- The live subscribers of the model are those created and not destroyed since. -/
theorem C25_live_is_api (addr : T → A) (base : A) (s : UdpLayer T A) (op : SubOp T) :
    (udpStep addr base s op).live =
      match op with
      | .create id t => if (AMap.find s.live id).isSome then s.live else (id, t) :: s.live
      | .destroy id => AMap.erase s.live id := by
  cases op with
  | create id t =>
    simp only [udpStep, topicOf]
    cases AMap.find s.live id <;> simp
  | destroy id =>
    simp only [udpStep, topicOf]
    cases hf : AMap.find s.live id with
    | none => simp [AMap.erase_of_not_mem ((AMap.find_none_iff _ _).1 hf)]
    | some t => simp

/-- Two topics sharing a group: the group is left only with the last one. -/
example :
    let addr : String → Nat := fun t => t.length
    let s1 := udpRun addr 0 {} [.create 1 "ab", .create 2 "cd", .destroy 1]
    let s2 := udpRun addr 0 s1 [.destroy 2]
    2 ∈ s1.joined ∧ 2 ∉ s2.joined ∧ 0 ∈ s2.joined := by decide +kernel

/-! ### C26 -/

/-- **C26 (violated).** Two subscribers of a topic in one process; destroying one ends TCP
reception for the other, and no later announcement of the publisher repairs it. -/
theorem C26_violated :
    ∃ h : List (TcpOp String), let s := tcpRun {} h
      (2, "t") ∈ s.live ∧ ∀ port, s.readers.find "t" = none ∧
        (tcpStep s (.peer "t" "host" port)).readers.find "t" = none := by
  refine ⟨[.create 1 "t", .create 2 "t", .peer "t" "host" 5000, .destroy 1], ?_⟩
  refine ⟨by decide +kernel, fun port => ⟨by decide +kernel, ?_⟩⟩
  have : tcpRun ({} : TcpLayer String) [.create 1 "t", .create 2 "t", .peer "t" "host" 5000, .destroy 1]
      = { readers := [], live := [(2, "t")] } := by decide +kernel
  rw [this]
  simp [tcpStep, tcpPeer]

/-- The topic has a TCP reader after the last operation concerning it: creation yes,
destruction no. -/
def lastIsCreate (t : T) : List (TcpOp T) → List (Nat × T) → Bool → Bool
  | [], _, b => b
  | .create id x :: h, live, b =>
    if (AMap.find live id).isSome then lastIsCreate t h live b
    else lastIsCreate t h ((id, x) :: live) (if x = t then true else b)
  | .destroy id :: h, live, b =>
    lastIsCreate t h (AMap.erase live id) (if AMap.find live id = some t then false else b)
  | .peer .. :: h, live, b => lastIsCreate t h live b

theorem tcp_exact (t : T) (h : List (TcpOp T)) (s : TcpLayer T) :
    ((tcpRun s h).readers.find t).isSome = lastIsCreate t h s.live (s.readers.find t).isSome := by
  induction h generalizing s with
  | nil => rfl
  | cons op h ih =>
    rw [show tcpRun s (op :: h) = tcpRun (tcpStep s op) h from rfl, ih]
    cases op with
    | create id x =>
      simp only [tcpStep, topicOf, lastIsCreate]
      cases hf : AMap.find s.live id with
      | some _ => simp
      | none =>
        simp only [Option.isSome_none, Bool.false_eq_true, if_false]
        congr 1
        unfold tcpAdd
        by_cases hx : x = t
        · subst hx
          cases hr : s.readers.find x <;> simp [hr]
        · cases hr : s.readers.find x with
          | some _ => simp [hx]
          | none => simp [hx, AMap.find_set_ne _ _ _ _ hx]
    | destroy id =>
      simp only [tcpStep, topicOf, lastIsCreate]
      cases hf : AMap.find s.live id with
      | none => simp [AMap.erase_of_not_mem ((AMap.find_none_iff _ _).1 hf)]
      | some x =>
        simp only
        congr 1
        unfold tcpRem
        by_cases hx : x = t
        · subst hx; simp
        · simp [hx, AMap.find_erase_ne _ _ _ hx]
    | peer x host port =>
      simp only [tcpStep, lastIsCreate]
      unfold tcpPeer
      cases hr : s.readers.find x with
      | none => rfl
      | some l =>
        simp only
        split
        · rfl
        · split
          · rfl
          · simp only
            congr 1
            by_cases hx : x = t
            · subst hx; simp [hr]
            · rw [AMap.find_set_ne _ _ _ _ hx]

/-- **C26 (exact).** TCP reception for a topic exists iff the last creation or destruction of
a subscriber of this topic was a creation. -/
theorem C26_exact (t : T) (h : List (TcpOp T)) :
    ((tcpRun ({} : TcpLayer T) h).readers.find t).isSome = lastIsCreate t h [] false :=
  tcp_exact t h {}

/-- No subscriber of topic `t` is created while another one of this topic is live. -/
def OnePerTopic (t : T) : List (TcpOp T) → List (Nat × T) → Prop
  | [], _ => True
  | .create id x :: h, live =>
    if (AMap.find live id).isSome then OnePerTopic t h live
    else (x = t → ∀ i, (i, t) ∉ live) ∧ OnePerTopic t h ((id, x) :: live)
  | .destroy id :: h, live => OnePerTopic t h (AMap.erase live id)
  | .peer .. :: h, live => OnePerTopic t h live

theorem mem_erase_iff (live : List (Nat × T)) (i id : Nat) (t : T) :
    (i, t) ∈ AMap.erase live id ↔ (i, t) ∈ live ∧ i ≠ id := by
  induction live with
  | nil => simp [AMap.erase]
  | cons p live ih =>
    obtain ⟨k, x⟩ := p
    by_cases hk : k = id
    · simp only [AMap.erase, hk, if_true, ih, List.mem_cons, Prod.mk.injEq]
      constructor
      · rintro ⟨a, b⟩; exact ⟨Or.inr a, b⟩
      · rintro ⟨(⟨a, _⟩ | a), b⟩
        · exact absurd a b
        · exact ⟨a, b⟩
    · simp only [AMap.erase, hk, if_false, List.mem_cons, Prod.mk.injEq, ih]
      constructor
      · rintro (⟨rfl, rfl⟩ | ⟨a, b⟩)
        · exact ⟨Or.inl ⟨rfl, rfl⟩, hk⟩
        · exact ⟨Or.inr a, b⟩
      · rintro ⟨(⟨rfl, rfl⟩ | a), b⟩
        · exact Or.inl ⟨rfl, rfl⟩
        · exact Or.inr ⟨a, b⟩

/-- **C26 (what holds).** With at most one subscriber per topic at a time the TCP reader of
the topic exists exactly while the subscriber exists.  Missing: several subscribers of one
topic. -/
theorem C26_single_subscriber_partial (t : T) (h : List (TcpOp T)) (ho : OnePerTopic t h []) :
    let s := tcpRun ({} : TcpLayer T) h
    (s.readers.find t).isSome ↔ ∃ id, (id, t) ∈ s.live := by
  intro s
  suffices ∀ (h : List (TcpOp T)) (s : TcpLayer T), OnePerTopic t h s.live →
      (AMap.keys s.live).Nodup →
      (∀ i j, (i, t) ∈ s.live → (j, t) ∈ s.live → i = j) →
      ((s.readers.find t).isSome ↔ ∃ id, (id, t) ∈ s.live) →
      (((tcpRun s h).readers.find t).isSome ↔ ∃ id, (id, t) ∈ (tcpRun s h).live) by
    exact this h {} ho (by simp) (by simp) (by simp)
  intro h
  induction h with
  | nil => intro s _ _ _ hi; exact hi
  | cons op h ih =>
    intro s ho hn hu hi
    rw [show tcpRun s (op :: h) = tcpRun (tcpStep s op) h from rfl]
    cases op with
    | create id x =>
      simp only [OnePerTopic] at ho
      simp only [tcpStep, topicOf]
      cases hf : AMap.find s.live id with
      | some _ => simp only [hf, Option.isSome_some, if_true] at ho; exact ih s ho hn hu hi
      | none =>
        simp only [hf, Option.isSome_none, Bool.false_eq_true, if_false] at ho
        obtain ⟨h1, h2⟩ := ho
        apply ih _ h2
        · simp only [AMap.keys_cons, List.nodup_cons]
          exact ⟨(AMap.find_none_iff _ _).1 hf, hn⟩
        · intro i j hi' hj'
          simp only [List.mem_cons, Prod.mk.injEq] at hi' hj'
          rcases hi' with ⟨rfl, rfl⟩ | hi' <;> rcases hj' with ⟨rfl, e⟩ | hj'
          · rfl
          · exact absurd hj' (h1 rfl j)
          · subst e; exact absurd hi' (h1 rfl i)
          · exact hu i j hi' hj'
        · unfold tcpAdd
          by_cases hx : x = t
          · subst hx
            cases hr : s.readers.find x with
            | none => simp
            | some l => simp [hr]
          · have : (∃ i, (i, t) ∈ (id, x) :: s.live) ↔ ∃ i, (i, t) ∈ s.live := by
              simp [Ne.symm hx]
            simp only
            rw [this, ← hi]
            cases hr : s.readers.find x with
            | none => simp only [AMap.find_set_ne _ _ _ _ hx]
            | some l => simp
    | destroy id =>
      simp only [OnePerTopic] at ho
      simp only [tcpStep, topicOf]
      cases hf : AMap.find s.live id with
      | none =>
        rw [AMap.erase_of_not_mem ((AMap.find_none_iff _ _).1 hf)] at ho
        exact ih s ho hn hu hi
      | some x =>
        apply ih _ ho (AMap.nodup_erase hn id)
        · intro i j hi' hj'
          exact hu i j ((mem_erase_iff _ _ _ _).1 hi').1 ((mem_erase_iff _ _ _ _).1 hj').1
        · unfold tcpRem
          by_cases hx : x = t
          · subst hx
            simp only [AMap.find_erase_self, Option.isSome_none, Bool.false_eq_true, false_iff]
            rintro ⟨i, hi'⟩
            obtain ⟨h1, h2⟩ := (mem_erase_iff _ _ _ _).1 hi'
            exact h2 (hu i id h1 (AMap.mem_of_find hf))
          · simp only [AMap.find_erase_ne _ _ _ hx]
            rw [hi]
            constructor
            · rintro ⟨i, hi'⟩
              refine ⟨i, (mem_erase_iff _ _ _ _).2 ⟨hi', ?_⟩⟩
              rintro rfl
              have := AMap.find_of_mem hn hi'
              rw [hf] at this
              exact hx (Option.some.inj this)
            · rintro ⟨i, hi'⟩
              exact ⟨i, ((mem_erase_iff _ _ _ _).1 hi').1⟩
    | peer x host port =>
      have e : (tcpStep s (.peer x host port)).live = s.live ∧
          ((tcpStep s (.peer x host port)).readers.find t).isSome = (s.readers.find t).isSome := by
        simp only [tcpStep, tcpPeer]
        cases hr : s.readers.find x with
        | none => simp
        | some l =>
          simp only
          split
          · simp
          · split
            · simp
            · refine ⟨rfl, ?_⟩
              simp only
              by_cases hx : x = t
              · subst hx; simp [hr]
              · rw [AMap.find_set_ne _ _ _ _ hx]
      apply ih
      · rw [e.1]; exact ho
      · rw [e.1]; exact hn
      · rw [e.1]; exact hu
      · rw [e.1, e.2]; exact hi

/-- **C26.** While the reader of a topic exists, an announced publisher (port ≠ 0) is
received from then on, exactly one session per host and port. -/
theorem C26_peer_connected (s : TcpLayer T) (t : T) (host : String) (port : Nat) (l : List (String × Nat))
    (hr : s.readers.find t = some l) (hp : port % 65536 ≠ 0) (hl : l.Nodup) :
    ∃ l', (tcpStep s (.peer t host port)).readers.find t = some l' ∧ (host, port % 65536) ∈ l' ∧
      l'.Nodup ∧ ∀ x ∈ l, x ∈ l' := by
  simp only [tcpStep, tcpPeer, hr, if_neg hp]
  by_cases hm : (host, port % 65536) ∈ l
  · rw [if_pos hm]; exact ⟨l, hr, hm, hl, fun x h => h⟩
  · rw [if_neg hm]
    refine ⟨l ++ [(host, port % 65536)], by simp, by simp, ?_, fun x h => by simp [h]⟩
    rw [List.nodup_append]
    refine ⟨hl, by simp, ?_⟩
    intro a ha b hb e
    simp at hb
    subst hb; subst e
    exact hm ha

example : OnePerTopic "t" [.create 1 "t", .create 2 "u", .destroy 1, .create 3 "t"] [] := by
  simp [OnePerTopic, AMap.find, AMap.erase]
example : tcpReceives (tcpRun {} [.create 1 "t", .peer "t" "h" 5000]) "t" "h" 5000 :=
  ⟨[("h", 5000)], by decide +kernel, by decide⟩

/-! ### C61 -/

/-- **C61 (violated).** Two threads create subscribers of one topic at the same time; both
calls complete, yet destroying the first subscriber leaves the multicast group although the
second one is alive. -/
theorem C61_violated :
    ∃ schedule : List Bool,
      let s := schedule.foldl raceStep {}
      s.pc1 = .done ∧ s.pc2 = .done ∧ s.joined = true ∧ (raceRem s).joined = false :=
  ⟨[false, true, false, true, false, true], by decide⟩

theorem raceStep_done1 (s : Race) (h : s.pc1 = .done) : raceStep s false = s := by
  cases s; simp_all [raceStep, addStmt]

theorem raceStep_done2 (s : Race) (h : s.pc2 = .done) : raceStep s true = s := by
  cases s; simp_all [raceStep, addStmt]

theorem foldl_fixed {s : Race} {b : Bool} (h : raceStep s b = s) (n : Nat) :
    (List.replicate n b).foldl raceStep s = s := by
  induction n with
  | zero => rfl
  | succ n ih => rw [List.replicate_succ, List.foldl_cons, h, ih]

/-- **C61 (what holds).** Whatever the number of steps: if one creation completes before the
other starts, the group is kept until both subscribers are gone, and then everything is as at the start. -/
theorem C61_sequential_partial (n m : Nat) :
    let s := (List.replicate (n + 3) false ++ List.replicate (m + 3) true).foldl raceStep {}
    s.pc1 = .done ∧ s.pc2 = .done ∧ (raceRem s).joined = true ∧
      (raceRem (raceRem s)).joined = false ∧ (raceRem (raceRem s)).count = none := by
  have e : (List.replicate (n + 3) false ++ List.replicate (m + 3) true).foldl raceStep {} =
      { count := some 2, joined := true, pc1 := .done, pc2 := .done } := by
    rw [List.foldl_append]
    have h1 : (List.replicate (n + 3) false).foldl raceStep {} =
        { count := some 1, joined := true, pc1 := .done, pc2 := .start } := by
      rw [Nat.add_comm, ← List.replicate_append_replicate, List.foldl_append]
      have : (List.replicate 3 false).foldl raceStep {} =
        { count := some 1, joined := true, pc1 := .done, pc2 := .start } := by decide
      rw [this]
      exact foldl_fixed (raceStep_done1 _ rfl) n
    rw [h1, Nat.add_comm, ← List.replicate_append_replicate, List.foldl_append]
    have : (List.replicate 3 true).foldl raceStep
        { count := some 1, joined := true, pc1 := .done, pc2 := .start } =
        { count := some 2, joined := true, pc1 := .done, pc2 := .done } := by decide
    rw [this]
    exact foldl_fixed (raceStep_done2 _ rfl) m
  simp only [e]
  decide

end Ecal.Udp
