import Verif.Udp.Reach

/-!
# C135: UDP samples reach the processes they are meant for
-/

namespace Ecal.Udp.Reach

/-- **C135.** The samples of a process with the network disabled are received on its own host by every listener on its port,
and nowhere else. -/
theorem C135_isolated (w : Nat) (c : Conf) (topic : List UInt8) (all : Bool) (dist : Nat → Nat → Nat)
    (world : List (Nat × Listener)) (src host : Nat) (l : Listener) (hn : c.udp.network = false) :
    deliver all dist world src (sendSample w c topic) host l = true ↔ l.port = (c.port + 2) % 65536 ∧ host = src := by
  cases hl : c.loopback <;>
    simp [deliver, sendSample, datagram, writerAttr, topicPayloadAddress, initSocket, hn, hl, payloadPort]

/-- **C135.** The same for its registrations: they never leave the host. -/
theorem C135_isolated_registration (c : Conf) (all : Bool) (dist : Nat → Nat → Nat) (world : List (Nat × Listener))
    (src host : Nat) (l : Listener) (hn : c.udp.network = false) :
    deliver all dist world src (sendRegistration c) host l = true ↔ l.port = c.port % 65536 ∧ host = src := by
  simp [deliver, sendRegistration, datagram, regAttr, registrationAddress, initSocket, hn, regPort]

/-- **C135.** With the network enabled on both sides and equal settings, a subscriber of the topic on another host receives
the sample exactly if it is not further away than the configured time to live allows. -/
theorem C135_remote (w : Nat) (c c' : Conf) (topic : List UInt8) (topics : List (List UInt8)) (all : Bool)
    (dist : Nat → Nat → Nat) (world : List (Nat × Listener)) (src host : Nat) (l : Listener)
    (hn : c.udp.network = true) (hu : c'.udp = c.udp) (hp : c'.port = c.port)
    (hb : topicPayloadAddress w c.udp topic ≠ localBroadcast) (ht : topic ∈ topics)
    (hl : payloadListener w c' topics = some l) (hw : (host, l) ∈ world) (hh : host ≠ src) :
    deliver all dist world src (sendSample w c topic) host l = true ↔ dist src host < c.ttl := by
  have hne : topics.isEmpty = false := by cases topics with
    | nil => cases ht
    | cons _ _ => rfl
  simp only [payloadListener, hne, Bool.false_eq_true, if_false, Option.some.injEq] at hl
  have hg : topicPayloadAddress w c.udp topic ∈ l.groups := by
    rw [← hl]; simp only [hu, hn, if_true]
    exact List.mem_cons_of_mem _ (List.mem_map.2 ⟨topic, ht, rfl⟩)
  have hport : l.port = (c.port + 2) % 65536 := by rw [← hl]; simp [payloadPort, hp]
  have hany : ∃ a b, (a, b) ∈ world ∧ a = host ∧ topicPayloadAddress w c.udp topic ∈ b.groups := ⟨host, l, hw, rfl, hg⟩
  have hs : (host == src) = false := by simpa using hh
  cases hlb : c.loopback <;> cases all <;>
    simp [deliver, sendSample, datagram, writerAttr, initSocket, hn, hlb, hb, payloadPort, hport, hany, hg, hs, multicastTtl]

/-- **C135.** On the own host such a subscriber receives the sample exactly if loopback is configured.
Missing: with the network disabled the setting is ignored (`C135_violated_loopback`). -/
theorem C135_own_host_partial (w : Nat) (c c' : Conf) (topic : List UInt8) (topics : List (List UInt8)) (all : Bool)
    (dist : Nat → Nat → Nat) (world : List (Nat × Listener)) (src : Nat) (l : Listener)
    (hn : c.udp.network = true) (hu : c'.udp = c.udp) (hp : c'.port = c.port)
    (hb : topicPayloadAddress w c.udp topic ≠ localBroadcast) (ht : topic ∈ topics)
    (hl : payloadListener w c' topics = some l) (hw : (src, l) ∈ world) :
    deliver all dist world src (sendSample w c topic) src l = true ↔ c.loopback = true := by
  have hne : topics.isEmpty = false := by cases topics with
    | nil => cases ht
    | cons _ _ => rfl
  simp only [payloadListener, hne, Bool.false_eq_true, if_false, Option.some.injEq] at hl
  have hg : topicPayloadAddress w c.udp topic ∈ l.groups := by
    rw [← hl]; simp only [hu, hn, if_true]
    exact List.mem_cons_of_mem _ (List.mem_map.2 ⟨topic, ht, rfl⟩)
  have hport : l.port = (c.port + 2) % 65536 := by rw [← hl]; simp [payloadPort, hp]
  have hany : ∃ a b, (a, b) ∈ world ∧ a = src ∧ topicPayloadAddress w c.udp topic ∈ b.groups := ⟨src, l, hw, rfl, hg⟩
  cases hlb : c.loopback <;> cases all <;>
    simp [deliver, sendSample, datagram, writerAttr, initSocket, hn, hlb, hb, payloadPort, hport, hany, hg]

/-- A configuration with the network enabled and the settings of a fresh installation. -/
def std (network loopback : Bool) (port : Nat) : Conf :=
  { udp := ⟨network, false, "239.0.0.1".toList, "0.0.0.15".toList⟩, port := port, ttl := 3, loopback := loopback }

/-- The hypotheses are met by a publisher and a subscriber of topic "a" with the default settings, two routers apart. -/
example : ∃ l, payloadListener 64 (std true true 14000) [[97]] = some l ∧
    topicPayloadAddress 64 (std true true 14000).udp [97] ≠ localBroadcast ∧
    deliver false (fun _ _ => 2) [(2, l)] 1 (sendSample 64 (std true true 14000) [97]) 2 l = true ∧
    deliver false (fun _ _ => 3) [(2, l)] 1 (sendSample 64 (std true true 14000) [97]) 2 l = false ∧
    deliver true (fun _ _ => 0) [(1, l)] 1 (sendSample 64 (std true false 14000) [97]) 1 l = false :=
  ⟨_, rfl, by decide +kernel, by decide +kernel, by decide +kernel, by decide +kernel⟩

/-- **C135.** Registrations are received by the registration listener of every process on the own host with the same
settings, whether loopback is configured or not; on other hosts as far as the time to live allows. -/
theorem C135_registration (c c' : Conf) (all : Bool) (dist : Nat → Nat → Nat) (world : List (Nat × Listener)) (src host : Nat)
    (hu : c'.udp = c.udp) (hp : c'.port = c.port) (hb : c.udp.network = true → c.udp.group ≠ localBroadcast)
    (hw : (host, regListener c') ∈ world) :
    deliver all dist world src (sendRegistration c) host (regListener c') = true ↔
      host = src ∨ (c.udp.network = true ∧ dist src host < c.ttl) := by
  cases hn : c.udp.network with
  | false =>
    rw [C135_isolated_registration c all dist world src host _ hn]
    simp [regListener, regPort, hp]
  | true =>
    have hb := hb hn
    have hany : ∃ a b, (a, b) ∈ world ∧ a = host ∧ c.udp.group ∈ b.groups :=
      ⟨host, _, hw, rfl, by simp [regListener, hu, hn, registrationAddress]⟩
    by_cases hh : host = src
    · subst hh
      cases all <;>
        simp [deliver, sendRegistration, datagram, regAttr, registrationAddress, initSocket, hn, hb, regPort, regListener, hu, hp, hany]
    · cases all <;>
        simp [deliver, sendRegistration, datagram, regAttr, registrationAddress, initSocket, hn, hb, regPort, regListener, hu, hp, hany,
          multicastTtl, hh]

/-- The hypotheses are met by two processes with the network enabled on two hosts. -/
example : (std true false 14000).udp.group ≠ localBroadcast ∧
    deliver true (fun _ _ => 2) [(1, regListener (std true false 14000)), (2, regListener (std true true 14000))] 1
      (sendRegistration (std true false 14000)) 2 (regListener (std true true 14000)) = true ∧
    deliver true (fun _ _ => 0) [(2, regListener (std false true 14000))] 1
      (sendRegistration (std false true 14000)) 2 (regListener (std false true 14000)) = false := by decide +kernel

/-- **C135.** Processes with the same port setting never mix payload and registration: neither datagram is given to the
other's listener, for any addresses and hosts; the port of the log messages is a third one. -/
theorem C135_ports (w : Nat) (c c' : Conf) (topic : List UInt8) (topics : List (List UInt8)) (all : Bool)
    (dist : Nat → Nat → Nat) (world : List (Nat × Listener)) (src host : Nat) (hp : c'.port = c.port) :
    deliver all dist world src (sendSample w c topic) host (regListener c') = false ∧
    (∀ l, payloadListener w c' topics = some l → deliver all dist world src (sendRegistration c) host l = false) ∧
    logPort c % 65536 ≠ (sendSample w c topic).port ∧ logPort c % 65536 ≠ (sendRegistration c).port := by
  refine ⟨?_, ?_, ?_, ?_⟩
  · have hne : ¬ c.port % 65536 = (c.port + 2) % 65536 := by omega
    cases hlb : c.loopback <;>
      simp [deliver, sendSample, datagram, writerAttr, regListener, regPort, payloadPort, hp, hlb, hne]
  · intro l hl
    have hne : ¬ (c.port + 2) % 65536 = c.port % 65536 := by omega
    unfold payloadListener at hl
    split at hl
    · cases hl
    · simp only [Option.some.injEq] at hl
      have hport : l.port = (c.port + 2) % 65536 := by rw [← hl]; simp [payloadPort, hp]
      simp [deliver, sendRegistration, datagram, regAttr, regPort, hport, hne]
  · cases hlb : c.loopback <;> simp [sendSample, datagram, writerAttr, payloadPort, hlb, logPort] <;> omega
  · simp [sendRegistration, datagram, regAttr, regPort, logPort]; omega

/-- **C135.** Without a subscriber a process has no payload socket, and with the network disabled it joins no group: where
only joined groups count, it receives no sample of a process with the network enabled. -/
theorem C135_one_way (w : Nat) (c c' : Conf) (topic : List UInt8) (topics : List (List UInt8)) (dist : Nat → Nat → Nat)
    (world : List (Nat × Listener)) (src host : Nat) (hn : c.udp.network = true) (hn' : c'.udp.network = false)
    (hb : topicPayloadAddress w c.udp topic ≠ localBroadcast) :
    (payloadListener w c' topics = none ↔ topics = []) ∧
    ∀ l, payloadListener w c' topics = some l → deliver false dist world src (sendSample w c topic) host l = false := by
  constructor
  · unfold payloadListener
    cases topics <;> simp
  · intro l hl
    unfold payloadListener at hl
    split at hl
    · cases hl
    · simp only [Option.some.injEq] at hl
      have hg : l.groups = [] := by rw [← hl]; simp [hn']
      cases hlb : c.loopback <;>
        simp [deliver, sendSample, datagram, writerAttr, hn, hlb, hb, hg]

/-- **C135.** Exact condition for a sample of a process with the network enabled and any listener on any host: the port is
the payload port, the group of the topic is joined (by the listener, or on Linux by any listener of its host), on the own
host loopback is configured, and other hosts are within the time to live. -/
theorem C135_exact (w : Nat) (c : Conf) (topic : List UInt8) (all : Bool) (dist : Nat → Nat → Nat)
    (world : List (Nat × Listener)) (src host : Nat) (l : Listener) (hn : c.udp.network = true)
    (hb : topicPayloadAddress w c.udp topic ≠ localBroadcast) :
    deliver all dist world src (sendSample w c topic) host l = true ↔
      l.port = (c.port + 2) % 65536 ∧
      (if all = true then ∃ l', (host, l') ∈ world ∧ topicPayloadAddress w c.udp topic ∈ l'.groups
       else topicPayloadAddress w c.udp topic ∈ l.groups) ∧
      (host = src → c.loopback = true) ∧ (host ≠ src → dist src host < c.ttl) := by
  have hex : (∃ a b, (a, b) ∈ world ∧ a = host ∧ topicPayloadAddress w c.udp topic ∈ b.groups) ↔
      ∃ l', (host, l') ∈ world ∧ topicPayloadAddress w c.udp topic ∈ l'.groups :=
    ⟨fun ⟨_, b, h, e, g⟩ => ⟨b, e ▸ h, g⟩, fun ⟨b, h, g⟩ => ⟨host, b, h, rfl, g⟩⟩
  by_cases hh : host = src <;> cases hlb : c.loopback <;> cases all <;>
    simp [deliver, sendSample, datagram, writerAttr, initSocket, hn, hlb, hb, payloadPort, hh, multicastTtl] <;>
    (try subst hh) <;> simp_all

/-- **C135.** The same for registrations: the group is the registration group, and loopback plays no part. -/
theorem C135_exact_registration (c : Conf) (all : Bool) (dist : Nat → Nat → Nat) (world : List (Nat × Listener))
    (src host : Nat) (l : Listener) (hn : c.udp.network = true) (hb : c.udp.group ≠ localBroadcast) :
    deliver all dist world src (sendRegistration c) host l = true ↔
      l.port = c.port % 65536 ∧
      (if all = true then ∃ l', (host, l') ∈ world ∧ c.udp.group ∈ l'.groups else c.udp.group ∈ l.groups) ∧
      (host ≠ src → dist src host < c.ttl) := by
  have hex : (∃ a b, (a, b) ∈ world ∧ a = host ∧ c.udp.group ∈ b.groups) ↔
      ∃ l', (host, l') ∈ world ∧ c.udp.group ∈ l'.groups :=
    ⟨fun ⟨_, b, h, e, g⟩ => ⟨b, e ▸ h, g⟩, fun ⟨b, h, g⟩ => ⟨host, b, h, rfl, g⟩⟩
  by_cases hh : host = src <;> cases all <;>
    simp [deliver, sendRegistration, datagram, regAttr, registrationAddress, initSocket, hn, hb, regPort, hh, multicastTtl] <;>
    (try subst hh) <;> simp_all

/-- **C135.** On a host where every listener belongs to a process with the network disabled, no sample of a process with the
network enabled is received, on Linux either. -/
theorem C135_disabled_host (w : Nat) (c : Conf) (topic : List UInt8) (all : Bool) (dist : Nat → Nat → Nat)
    (world : List (Nat × Listener)) (src host : Nat) (l : Listener) (hn : c.udp.network = true)
    (hb : topicPayloadAddress w c.udp topic ≠ localBroadcast) (hl : (host, l) ∈ world)
    (hw : ∀ l', (host, l') ∈ world → ∃ c' : Conf, c'.udp.network = false ∧
      (l' = regListener c' ∨ ∃ topics, payloadListener w c' topics = some l')) :
    deliver all dist world src (sendSample w c topic) host l = false := by
  have hg : ∀ l', (host, l') ∈ world → l'.groups = [] := by
    intro l' h
    obtain ⟨c', hn', h | ⟨topics, h⟩⟩ := hw l' h
    · rw [h]; simp [regListener, hn']
    · unfold payloadListener at h
      split at h
      · cases h
      · simp only [Option.some.injEq] at h
        rw [← h]; simp [hn']
  cases hd : deliver all dist world src (sendSample w c topic) host l with
  | false => rfl
  | true =>
    have h := ((C135_exact w c topic all dist world src host l hn hb).1 hd).2.1
    cases all with
    | false => simp [hg l hl] at h
    | true =>
      obtain ⟨l', h1, h2⟩ := by simpa using h
      rw [hg l' h1] at h2; cases h2

/-- The hypotheses are met by a host with one process, network disabled, with a subscriber. -/
example : ∃ l, payloadListener 64 (std false true 14000) [[97]] = some l ∧ l.port = (14000 + 2) % 65536 ∧
    topicPayloadAddress 64 (std true true 14000).udp [97] ≠ localBroadcast ∧
    deliver true (fun _ _ => 0) [(2, l), (2, regListener (std false true 14000))] 1
      (sendSample 64 (std true true 14000) [97]) 2 l = false :=
  ⟨_, rfl, by decide +kernel, by decide +kernel, by decide +kernel⟩

/-- **C135.** Log messages: if no log file is wanted or its directory exists, every process listens for them and sends them
exactly if a level is enabled for UDP; they reach the processes with the same settings on the own host and on all hosts
within the time to live, and never a listener for samples or registrations.
Missing: the directory (`C135_violated_log_directory`). -/
theorem C135_log_partial (w : Nat) (c c' : Conf) (fm um fm' um' : Nat) (dir dir' : Bool) (all : Bool) (dist : Nat → Nat → Nat)
    (world : List (Nat × Listener)) (src host : Nat) (hu : c'.udp = c.udp) (hp : c'.port = c.port)
    (hb : c.udp.network = true → c.udp.group ≠ localBroadcast) (hd : fm = 0 ∨ dir = true) (hd' : fm' = 0 ∨ dir' = true) :
    ((startLog c fm um dir).sender = none ↔ um = 0) ∧
    ∃ l, (startLog c' fm' um' dir').listener = some l ∧
      ∀ a, (startLog c fm um dir).sender = some a →
        ((host, l) ∈ world → (deliver all dist world src (datagram a) host l = true ↔
          host = src ∨ (c.udp.network = true ∧ dist src host < c.ttl))) ∧
        deliver all dist world src (datagram a) host (regListener c') = false ∧
        ∀ topics l', payloadListener w c' topics = some l' → deliver all dist world src (datagram a) host l' = false := by
  have hs : (fm != 0 && !dir) = false := by rcases hd with h | h <;> simp [h]
  have hs' : (fm' != 0 && !dir') = false := by rcases hd' with h | h <;> simp [h]
  refine ⟨?_, logListener c', ?_, ?_⟩
  · simp only [startLog, hs]
    by_cases h : um = 0 <;> simp [h]
  · simp only [startLog, hs']; rfl
  · intro a ha
    have ha : a = logAttr c := by
      simp only [startLog, hs] at ha
      by_cases h : um = 0 <;> simp [h] at ha
      exact ha.symm
    subst ha
    refine ⟨fun hw => ?_, ?_, ?_⟩
    · cases hn : c.udp.network with
      | false =>
        simp [deliver, datagram, logAttr, registrationAddress, initSocket, hn, logListener, logPort, hp]
      | true =>
        have hb := hb hn
        have hany : ∃ a b, (a, b) ∈ world ∧ a = host ∧ c.udp.group ∈ b.groups :=
          ⟨host, _, hw, rfl, by simp [logListener, hu, hn, registrationAddress]⟩
        by_cases hh : host = src
        · subst hh
          cases all <;>
            simp [deliver, datagram, logAttr, registrationAddress, initSocket, hn, hb, logPort, logListener, hu, hp, hany]
        · cases all <;>
            simp [deliver, datagram, logAttr, registrationAddress, initSocket, hn, hb, logPort, logListener, hu, hp, hany,
              multicastTtl, hh]
    · have hne : ¬ c.port % 65536 = (c.port + 1) % 65536 := by omega
      simp [deliver, datagram, logAttr, regListener, regPort, logPort, hp, hne]
    · intro topics l' hl
      have hne : ¬ (c.port + 2) % 65536 = (c.port + 1) % 65536 := by omega
      unfold payloadListener at hl
      split at hl
      · cases hl
      · simp only [Option.some.injEq] at hl
        have hport : l'.port = (c.port + 2) % 65536 := by rw [← hl]; simp [payloadPort, hp]
        simp [deliver, datagram, logAttr, logPort, hport, hne]

/-- The hypotheses are met by two processes on two hosts that both log to files and by UDP. -/
example : ∃ a l, (startLog (std true true 14000) 1 1 true).sender = some a ∧
    (startLog (std true false 14000) 1 0 true).listener = some l ∧
    deliver false (fun _ _ => 2) [(2, l)] 1 (datagram a) 2 l = true ∧
    deliver false (fun _ _ => 3) [(2, l)] 1 (datagram a) 2 l = false :=
  ⟨_, _, rfl, rfl, by decide +kernel, by decide +kernel⟩

/-- **C135 (violated).** Without the directory of the log files a process whose log goes to a file as well neither sends
nor receives log messages by UDP, whatever is configured for UDP. -/
theorem C135_violated_log_directory (c : Conf) (fm um : Nat) (h : fm ≠ 0) :
    (startLog c fm um false).sender = none ∧ (startLog c fm um false).listener = none := by
  simp [startLog, h]

/-- **C135 (violated).** Loopback is switched off, but with the network disabled the sender's own subscribers still receive
its samples: the option is not set on sockets in broadcast mode, and broadcasts would ignore it. -/
theorem C135_violated_loopback :
    ∃ (c : Conf) (l : Listener), c.loopback = false ∧ payloadListener 64 c [[97]] = some l ∧
      deliver true (fun _ _ => 0) [(1, l)] 1 (sendSample 64 c [97]) 1 l = true :=
  ⟨std false false 14000, _, rfl, rfl, by decide +kernel⟩

/-- **C135 (violated).** On Linux a process with the network disabled receives samples of other hosts as soon as another
process of its host, with the network enabled, subscribes to the topic. -/
theorem C135_violated_local_only :
    ∃ (l l' : Listener), payloadListener 64 (std false true 14000) [[97]] = some l ∧
      payloadListener 64 (std true true 14000) [[97]] = some l' ∧
      deliver true (fun _ _ => 0) [(2, l), (2, l')] 1 (sendSample 64 (std true true 14000) [97]) 2 l = true ∧
      deliver true (fun _ _ => 0) [(2, l)] 1 (sendSample 64 (std true true 14000) [97]) 2 l = false :=
  ⟨_, _, rfl, rfl, by decide +kernel, by decide +kernel⟩

/-- **C135 (violated).** Processes with different port settings are not separate: with ports 14000 and 14002 the samples of
the first are given to the registration of the second. -/
theorem C135_violated_ports :
    ∃ (c c' : Conf), c.port ≠ c'.port ∧
      deliver true (fun _ _ => 0) [(1, regListener c')] 1 (sendSample 64 c [97]) 1 (regListener c') = true :=
  ⟨std false true 14000, std false true 14002, by decide, by decide +kernel⟩

/-- **C135.** Port settings that differ by 3 to 65533 are separate: no listener of the one is given a datagram of the other. -/
theorem C135_separate (w : Nat) (c c' : Conf) (topic : List UInt8) (topics : List (List UInt8)) (all : Bool)
    (dist : Nat → Nat → Nat) (world : List (Nat × Listener)) (src host : Nat)
    (hp : (c.port + 3 ≤ c'.port ∧ c'.port ≤ c.port + 65533) ∨ (c'.port + 3 ≤ c.port ∧ c.port ≤ c'.port + 65533))
    (d : Datagram) (hd : d = sendSample w c topic ∨ d = sendRegistration c ∨ d = datagram (logAttr c)) (l : Listener)
    (hl : l = regListener c' ∨ payloadListener w c' topics = some l ∨ l = logListener c') :
    deliver all dist world src d host l = false := by
  have hdp : d.port = c.port % 65536 ∨ d.port = (c.port + 2) % 65536 ∨ d.port = (c.port + 1) % 65536 := by
    rcases hd with rfl | rfl | rfl
    · right; left; cases hlb : c.loopback <;> simp [sendSample, datagram, writerAttr, payloadPort, hlb]
    · left; rfl
    · right; right; rfl
  have hlp : l.port = c'.port % 65536 ∨ l.port = (c'.port + 2) % 65536 ∨ l.port = (c'.port + 1) % 65536 := by
    rcases hl with rfl | hl | rfl
    · left; rfl
    · right; left
      unfold payloadListener at hl
      split at hl
      · cases hl
      · simp only [Option.some.injEq] at hl
        rw [← hl]; rfl
    · right; right; rfl
  have hne : ¬ l.port = d.port := by omega
  have : (l.port == d.port) = false := by simpa using hne
  simp [deliver, this]

example : ((14000 : Nat) + 3 ≤ 14100 ∧ 14100 ≤ 14000 + 65533) ∧
    payloadListener 64 (std true true 14100) [[97]] ≠ none := by decide +kernel

end Ecal.Udp.Reach
