import Verif.Capi.Util
import Verif.Capi.CopyProps
import Verif.Desc.Quality

/-!
# C127: C programs get the descriptions that were announced
-/

namespace Ecal.Capi.Util

open Ecal Ecal.Desc

/-! ## Specification -/

/-- At `now` an entity of the topic is known with this type: its latest announcement in the history is not older than the
time-out and was not followed by an unregistration (`lastTopic` looks at the history only). -/
def Announced (T : Int) (h : List (Int × Op)) (now : Int) (name : String) (producer : Bool) (ty : DataType) : Prop :=
  ∃ id t, lastTopic producer name id h none = some (ty, t) ∧ now - T ≤ t

/-- No announced type of the topic says more. -/
def Best (T : Int) (h : List (Int × Op)) (now : Int) (name : String) (producer : Bool) (ty : DataType) : Prop :=
  Announced T h now name producer ty ∧
    ∀ p ty', Announced T h now name p ty' → quality ty' p ≤ quality ty producer

/-- The same for a method of a service or client. -/
def Offers (T : Int) (h : List (Int × Op)) (now : Int) (server : Bool) (service method : String) (x : Method) : Prop :=
  ∃ id t, lastMethod server service method id h none = some (x, t) ∧ now - T ≤ t

/-! ## Lemmas -/

theorem erase_twice {K V : Type} [DecidableEq K] (limit : Int) : ∀ (ns : List (ExpMap.Node K)) (m : AMap K (V × Nat)),
    ExpMap.eraseExpiredLoop limit (ExpMap.eraseExpiredLoop limit ns m).1 (ExpMap.eraseExpiredLoop limit ns m).2.1 =
      ((ExpMap.eraseExpiredLoop limit ns m).1, (ExpMap.eraseExpiredLoop limit ns m).2.1, [])
  | [], m => rfl
  | n :: ns, m => by
    by_cases h : n.ts < limit
    · simp only [ExpMap.eraseExpiredLoop, if_pos h]
      exact erase_twice limit ns (m.erase n.key)
    · simp only [ExpMap.eraseExpiredLoop, if_neg h]

theorem topics_twice (s : ExpMap.State TopicKey TopicInfo) (now : Int) :
    topics (topics s now).1 now = topics s now := by
  have h := erase_twice (now - s.timeout) s.nodes s.map
  simp only [topics, ExpMap.eraseExpired]
  simp only [h]

theorem read_twice (g : Gate) (now : Int) : readTopics (readTopics g now) now = readTopics g now := by
  simp only [readTopics, topics_twice]

/-! ## Topics -/

/-- **C127 (topics, what is found).** After every history of registrations and queries, the text that is copied out is
that of an announced type of the topic that says as much as any other; nothing is found exactly if the topic is not
announced. -/
theorem C127_topic (T t0 now : Int) (h : List (Int × Op)) (g : Gate) (hc : Clock t0 h now)
    (hr : (Gate.init T).run h = some g) (name : String) :
    ((∀ p, (lookUp (some g) now (.topic p (some name))).2 = none) ↔ ∀ pr ty, ¬ Announced T h now name pr ty) ∧
    ((∃ pr ty, Announced T h now name pr ty) → ∃ pr ty, Best T h now name pr ty ∧
      ∀ p, (lookUp (some g) now (.topic p (some name))).2 = some (part ty p)) := by
  obtain ⟨h1, h2⟩ := C43_topic_type T t0 now h g hc hr name
  have hp := fun q => C42_publishers T t0 now h g hc hr name q
  have hs := fun q => C42_subscribers T t0 now h g hc hr name q
  have ann : ∀ pr ty, Announced T h now name pr ty → ∃ q, ((name, q) ∈ (topics g.pubs now).2 ∨ (name, q) ∈ (topics g.subs now).2) ∧
      q.info = ty ∧ q.quality = quality ty pr := by
    rintro pr ty ⟨id, t, ha, hb⟩
    cases pr with
    | true => exact ⟨⟨id, ty, quality ty true⟩, Or.inl ((hp _).2 ⟨ty, t, ha, hb, rfl, rfl⟩), rfl, rfl⟩
    | false => exact ⟨⟨id, ty, quality ty false⟩, Or.inr ((hs _).2 ⟨ty, t, ha, hb, rfl, rfl⟩), rfl, rfl⟩
  have dec : ∀ q, ((name, q) ∈ (topics g.pubs now).2 ∨ (name, q) ∈ (topics g.subs now).2) →
      ∃ pr, Announced T h now name pr q.info ∧ q.quality = quality q.info pr := by
    rintro q (hq | hq)
    · obtain ⟨ty, t, ha, hb, hi, hq⟩ := (hp q).1 hq
      subst hi
      exact ⟨true, ⟨q.id, t, ha, hb⟩, hq⟩
    · obtain ⟨ty, t, ha, hb, hi, hq⟩ := (hs q).1 hq
      subst hi
      exact ⟨false, ⟨q.id, t, ha, hb⟩, hq⟩
  have hl : ∀ p, (lookUp (some g) now (.topic p (some name))).2 =
      if (topicType name (topics g.pubs now).2 (topics g.subs now).2).2 then
        some (part (topicType name (topics g.pubs now).2 (topics g.subs now).2).1.info p) else none := fun p => rfl
  by_cases hf : (topicType name (topics g.pubs now).2 (topics g.subs now).2).2 = true
  · obtain ⟨q, hq, hi, hm⟩ := h2 hf
    obtain ⟨pr, ha, hql⟩ := dec q hq
    constructor
    · constructor
      · intro hn
        have := hn .name
        rw [hl, if_pos hf] at this
        cases this
      · intro hn
        exact absurd ha (hn _ _)
    · intro _
      refine ⟨pr, q.info, ⟨ha, ?_⟩, fun p => by rw [hl, if_pos hf, hi]⟩
      intro p' ty' ha'
      obtain ⟨q', hq', hi', hql'⟩ := ann p' ty' ha'
      rw [← hql', ← hql]
      exact hm q' hq'
  · have hno : ∀ pr ty, ¬ Announced T h now name pr ty := by
      intro pr ty ha
      obtain ⟨q, hq, _, _⟩ := ann pr ty ha
      have := h1.1 (by simpa using hf) q
      rcases hq with hq | hq
      · exact this.1 hq
      · exact this.2 hq
    constructor
    · exact ⟨fun _ => hno, fun _ p => by rw [hl, if_neg hf]⟩
    · rintro ⟨pr, ty, ha⟩; exact absurd ha (hno _ _)

/-- **C127 (what the caller sees).** With a buffer of at least the length of the text, the buffer begins with exactly the
text that was found and its length is returned; the rest of the buffer is unchanged.  Missing for the full claim: smaller
buffers and empty texts, see below. -/
theorem C127_copied_partial (malloc : Bool) (g : Option Gate) (now : Int) (a : Ask) (buf : Bytes) (s : String)
    (hs : (lookUp g now a).2 = some s) (hn : bytesOf s ≠ []) (hle : (bytesOf s).length ≤ buf.length)
    (hb : buf.length < 2147483648) :
    (call malloc g now a (.bytes buf) buf.length).2 =
      .ret (bytesOf s).length (.bytes (bytesOf s ++ buf.drop (bytesOf s).length)) := by
  have hp := List.length_pos_iff.2 hn
  have hbuf : buf ≠ [] := by intro he; rw [he] at hle; simp at hle; exact hn hle
  have := C78_copy_partial malloc buf (bytesOf s) hbuf hn (by omega)
  rw [if_pos hle] at this
  simp only [call, hs]
  rw [if_neg (by simp), this]

/-- **C127 (nothing found).** Then 0 is returned and the memory of the caller is untouched, whatever it is. -/
theorem C127_unknown (malloc : Bool) (g : Option Gate) (now : Int) (a : Ask) (t : Target) (len : Int)
    (hs : (lookUp g now a).2 = none) : (call malloc g now a t len).2 = .ret 0 t := by
  simp only [call, hs]
  split <;> rfl

/-- **C127 (no library, null pointers).** Without an initialised library, without names or without a target nothing is
found and nothing touched. -/
theorem C127_nothing (malloc : Bool) (g : Option Gate) (now : Int) (a : Ask) (t : Target) (len : Int)
    (hn : g = none ∨ t = .null ∨ (∃ p, a = .topic p none) ∨ (∃ sv d r m, a = .method sv d r none m) ∨
      ∃ sv d r s, a = .method sv d r s none) : call malloc g now a t len = (g, .ret 0 t) := by
  rcases hn with rfl | rfl | ⟨p, rfl⟩ | ⟨sv, d, r, m, rfl⟩ | ⟨sv, d, r, s, rfl⟩
  · unfold call lookUp
    by_cases ht : t = .null
    · rw [if_pos ht]
    · rw [if_neg ht]; split <;> rfl
  · simp [call]
  · simp [call, lookUp]
  · simp [call, lookUp]
  · cases s <;> simp [call, lookUp]

/-- **C127 (three calls).** If nothing is registered and no entry expires between them, the calls for name, encoding and
description tell of one announced type.  Missing for the full claim: changes between the calls. -/
theorem C127_consistent_partial (T t0 now : Int) (h : List (Int × Op)) (g : Gate) (hc : Clock t0 h now)
    (hr : (Gate.init T).run h = some g) (malloc : Bool) (name : String) (ts : Part → Target) (len : Part → Int)
    (hx : ∃ pr ty, Announced T h now name pr ty) (ht : ∀ p, ts p ≠ .null) :
    ∃ pr ty, Best T h now name pr ty ∧
      let c1 := call malloc (some g) now (.topic .name (some name)) (ts .name) (len .name)
      let c2 := call malloc c1.1 now (.topic .encoding (some name)) (ts .encoding) (len .encoding)
      let c3 := call malloc c2.1 now (.topic .descriptor (some name)) (ts .descriptor) (len .descriptor)
      c1.2 = copyBuffer malloc (ts .name) (len .name) (bytesOf ty.name) ∧
        c2.2 = copyBuffer malloc (ts .encoding) (len .encoding) (bytesOf ty.encoding) ∧
        c3.2 = copyBuffer malloc (ts .descriptor) (len .descriptor) (bytesOf ty.descriptor) := by
  obtain ⟨pr, ty, hb, hl⟩ := (C127_topic T t0 now h g hc hr name).2 hx
  refine ⟨pr, ty, hb, ?_⟩
  have again : ∀ p, lookUp (some (readTopics g now)) now (.topic p (some name)) =
      (some (readTopics g now), some (part ty p)) := by
    intro p
    have := hl p
    simp only [lookUp] at this ⊢
    rw [read_twice]
    simp only [readTopics, topics_twice, this]
  have first : ∀ p, lookUp (some g) now (.topic p (some name)) = (some (readTopics g now), some (part ty p)) := by
    intro p
    have := hl p
    simp only [lookUp] at this ⊢
    rw [this]
  simp only [call, if_neg (ht _), first, again, part, and_self]

/-! ## Methods -/

/-- **C127 (methods).** After every history, what is copied out for a method is a text of a method that is announced by
a living server (client) of the service; nothing is found exactly if there is none. -/
theorem C127_method_partial (T t0 now : Int) (h : List (Int × Op)) (g : Gate) (hc : Clock t0 h now)
    (hr : (Gate.init T).run h = some g) (server desc resp : Bool) (service method : String) :
    ((lookUp (some g) now (.method server desc resp (some service) (some method))).2 = none ↔
      ∀ x, ¬ Offers T h now server service method x) ∧
    ∀ s, (lookUp (some g) now (.method server desc resp (some service) (some method))).2 = some s → s ≠ "" →
      ∃ x, Offers T h now server service method x ∧
        s = if desc then (if resp then x.respDesc else x.reqDesc) else (if resp then x.respType else x.reqType) := by
  have key : ∀ (l : List ((String × String) × ServiceInfo)),
      (∀ q, ((service, method), q) ∈ l ↔ ∃ x t, lastMethod server service method q.id h none = some (x, t) ∧ now - T ≤ t ∧
        q.request = { name := x.reqType, descriptor := x.reqDesc } ∧
        q.response = { name := x.respType, descriptor := x.respDesc } ∧
        q.reqQ = quality q.request server ∧ q.respQ = quality q.response server) →
      (methodText l desc resp service method = none ↔ ∀ x, ¬ Offers T h now server service method x) ∧
      ∀ s, methodText l desc resp service method = some s → s ≠ "" →
        ∃ x, Offers T h now server service method x ∧
          s = if desc then (if resp then x.respDesc else x.reqDesc) else (if resp then x.respType else x.reqType) := by
    intro l hl
    have hset : serviceSet (service, method) l = ((l.filter (fun e => e.1 == (service, method))).map Prod.snd).foldl
        (fun a e => setInsert ServiceInfo.lt e a) [] := foldl_map_insert Prod.snd _ _ _
    have hmem : ∀ q, q ∈ (l.filter (fun e => e.1 == (service, method))).map Prod.snd ↔ ((service, method), q) ∈ l := by
      intro q
      simp only [List.mem_map, List.mem_filter, beq_iff_eq]
      constructor
      · rintro ⟨⟨n, x⟩, ⟨hm, rfl⟩, rfl⟩; exact hm
      · intro hm; exact ⟨_, ⟨hm, rfl⟩, rfl⟩
    have offer : (∃ x, Offers T h now server service method x) → serviceSet (service, method) l ≠ [] := by
      rintro ⟨x, id, t, ha, hb⟩ he
      have hin := (hl ⟨id, { name := x.reqType, descriptor := x.reqDesc }, { name := x.respType, descriptor := x.respDesc },
        quality { name := x.reqType, descriptor := x.reqDesc } server,
        quality { name := x.respType, descriptor := x.respDesc } server⟩).2 ⟨x, t, ha, hb, rfl, rfl, rfl, rfl⟩
      obtain ⟨z, hz, _⟩ := insertAll_represented ServiceInfo.lt service_irr _ [] _ ((hmem _).2 hin)
      rw [← hset, he] at hz
      cases hz
    have found : ∀ q ∈ serviceSet (service, method) l, ((service, method), q) ∈ l := by
      intro q hq
      rw [hset] at hq
      rcases mem_insertAll _ _ _ _ hq with hq | hq
      · exact (hmem q).1 hq
      · cases hq
    by_cases he : serviceSet (service, method) l = []
    · constructor
      · constructor
        · intro _ x hx
          exact offer ⟨x, hx⟩ he
        · intro _; simp [methodText, he]
      · intro s hs; simp [methodText, he] at hs
    · constructor
      · constructor
        · intro hn; simp [methodText, he] at hn
        · intro hn
          obtain ⟨q, qs, hq⟩ := List.exists_cons_of_ne_nil he
          obtain ⟨x, t, ha, hb, _⟩ := (hl q).1 (found q (by rw [hq]; simp))
          exact absurd ⟨q.id, t, ha, hb⟩ (hn x)
      · intro s hs hne
        obtain ⟨q, qs, hq⟩ := List.exists_cons_of_ne_nil he
        have hpart := (C43_service_method_partial l (service, method) q (found q (by rw [hq]; simp))).2
        simp only [methodText, List.isEmpty_iff, if_neg he, Option.some.injEq] at hs
        rcases hpart with hp | hp
        · rw [hp] at hs
          exfalso; apply hne; rw [← hs]
          cases desc <;> cases resp <;> rfl
        · obtain ⟨x, t, ha, hb, h1, h2, _⟩ := (hl _).1 hp
          refine ⟨x, ⟨_, t, ha, hb⟩, ?_⟩
          rw [← hs, h1, h2]
          cases desc <;> cases resp <;> rfl
  cases server with
  | true => exact key (services g.srvs now).2 (fun q => C42_services T t0 now h g hc hr service method q)
  | false => exact key (services g.clis now).2 (fun q => C42_clients T t0 now h g hc hr service method q)

/-! ## The hypotheses are met -/

def tyA : DataType := ⟨"A", "pb", "da"⟩
def tyB : DataType := ⟨"B", "pb", "db"⟩

/-- Two publishers of one topic with different types, the first with the smaller id. -/
def hist : List (Int × Op) := [(0, .apply (.regTopic true "1" "t" tyA)), (1, .apply (.regTopic true "2" "t" tyB))]

example : ∃ g, (Gate.init 5000).run hist = some g ∧ Clock 0 hist 2 ∧ Announced 5000 hist 2 "t" true tyB ∧
    (lookUp (some g) 2 (.topic .name (some "t"))).2 = some "A" :=
  ⟨_, rfl, by unfold hist; simp [Clock], ⟨2, 1, by decide +kernel, by decide⟩, by decide +kernel⟩

example : ∃ g x, (Gate.init 5000).run [(0, .apply (.regService true "7" "s" [⟨"m", "Q", "dq", "R", "dr"⟩]))] = some g ∧
    Offers 5000 [(0, .apply (.regService true "7" "s" [⟨"m", "Q", "dq", "R", "dr"⟩]))] 1 true "s" "m" x ∧
    (lookUp (some g) 1 (.method true true true (some "s") (some "m"))).2 = some "dr" :=
  ⟨_, ⟨"m", "Q", "dq", "R", "dr"⟩, rfl, ⟨7, 0, by decide +kernel, by decide⟩, by decide +kernel⟩

/-! ## Violations -/

/-- **C127 violated (small buffer).** Too small a buffer gives the same answer as an unknown topic: 0, nothing copied. -/
theorem C127_violated_small (malloc : Bool) (g : Option Gate) (now : Int) (a : Ask) (buf : Bytes) (s : String)
    (hs : (lookUp g now a).2 = some s) (hb : buf ≠ []) (hlt : buf.length < (bytesOf s).length)
    (hl : (bytesOf s).length < 2147483648) :
    (call malloc g now a (.bytes buf) buf.length).2 = (call malloc none now a (.bytes buf) buf.length).2 := by
  have hn : bytesOf s ≠ [] := by intro he; rw [he] at hlt; simp at hlt
  have := C78_copy_partial malloc buf (bytesOf s) hb hn hl
  rw [if_neg (by omega)] at this
  rw [C127_nothing malloc none now a _ _ (Or.inl rfl)]
  simp only [call, hs]
  rw [if_neg (by simp), this]

/-- **C127 violated (no type).** A topic without a type cannot be told from a topic that does not exist. -/
theorem C127_violated_untyped (malloc : Bool) (g : Option Gate) (now : Int) (a : Ask) (t : Target) (len : Int)
    (hs : (lookUp g now a).2 = some "") : (call malloc g now a t len).2 = .ret 0 t := by
  simp only [call, hs]
  by_cases ht : t = .null
  · simp [ht]
  · rw [if_neg ht]
    simp [copyBuffer, copyAs, ht, bytesOf]

/-- **C127 violated (mixture).** Between the call for the name and the call for the description the first publisher goes:
the program gets name and description that no entity has ever announced together. -/
theorem C127_violated_mixture :
    ∃ (g g' : Gate) (h : List (Int × Op)), (Gate.init 5000).run hist = some g ∧ g.run h = some g' ∧
      (lookUp (some g) 2 (.topic .name (some "t"))).2 = some "A" ∧
      (lookUp (some g') 3 (.topic .descriptor (some "t"))).2 = some "db" ∧
      ∀ op ∈ hist ++ h, ∀ pub id name ty, op.2 = .apply (.regTopic pub id name ty) → ¬ (ty.name = "A" ∧ ty.descriptor = "db") := by
  refine ⟨_, _, [(2, .apply (.unregTopic true "1" "t"))], rfl, rfl, by decide +kernel, by decide +kernel, ?_⟩
  intro op hop pub id name ty he
  simp only [hist, List.cons_append, List.nil_append, List.mem_cons, List.not_mem_nil, or_false] at hop
  rcases hop with rfl | rfl | rfl
  · cases he; decide
  · cases he; decide
  · cases he

end Ecal.Capi.Util
