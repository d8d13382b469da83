import Verif.Shm.Posix

/-!
# C115: what processes do with shared segments does not crash them
-/

namespace Ecal.Shm.Posix

/-! ## The circumstances under which nothing can go wrong -/

/-- A step is proper if all creators of a name ask for the same length, a segment is opened only after
one of its creators has finished creating it, no descriptor has the number 0, the operating system
resizes files and maps opened ones, creators get the lock, and only creators write. -/
def Proper (sz : Nat → Nat) (k : Kern) : Step → Prop
  | .alloc _ name create len fd _ =>
    fd ≠ 0 ∧ (create = true → len = sz name) ∧
    (create = false → ∀ i, k.names name = some i → (k.inodes i).hdr.hsize ≠ 0)
  | .size _ ok => ok = true
  | .map u ok => ∀ o, k.objs u = some o → o.create = false → ok = true
  | .header u _ lock => ∀ o, k.objs u = some o → o.create = true → lock = true
  | .access u write _ => ∀ o, k.objs u = some o → o.create = false → write = false
  | _ => True

/-- Every step of a run is proper in the state in which it happens. -/
def ProperRun (c : Cfg) (sz : Nat → Nat) (k : Kern) : List Step → Prop
  | [] => True
  | s :: ss => Proper sz k s ∧ ∀ k', step c k s = .ok k' → ProperRun c sz k' ss

/-- Sane constants: a page is not empty and the header fits into it. -/
def Sane (c : Cfg) : Prop := 2 ≤ c.hdr ∧ c.hdr ≤ c.page

/-- Linux on a 64-bit machine. -/
def linux : Cfg := ⟨4096, 24⟩

example : Sane linux := by unfold Sane linux; decide

theorem le_pages (c : Cfg) (h : Sane c) (n : Nat) : n ≤ pages c n := by
  obtain ⟨h1, h2⟩ := h
  unfold pages
  have hp : 0 < c.page := by omega
  have h3 := Nat.div_add_mod (n + c.page - 1) c.page
  have h4 := Nat.mod_lt (n + c.page - 1) hp
  rw [Nat.mul_comm] at h3
  omega

/-- The size of a file whose payload has length `L`. -/
def fileSize (c : Cfg) (L : Nat) : Nat := atLeastPage c (L + c.hdr)

theorem page_le_fileSize (c : Cfg) (L : Nat) : c.page ≤ fileSize c L := by
  unfold fileSize atLeastPage; split <;> omega

theorem len_le_fileSize (c : Cfg) (L : Nat) : L + c.hdr ≤ fileSize c L := by
  unfold fileSize atLeastPage; split <;> omega

/-- A file whose payload has length `L`. -/
structure InodeOk (c : Cfg) (L : Nat) (f : Inode) : Prop where
  size : f.size = 0 ∨ f.size = fileSize c L
  hdr  : f.hdr = ⟨0, 0, 0⟩ ∨ (f.hdr.hsize = c.hdr ∧ f.hdr.max = L ∧ f.hdr.cur ≤ L ∧ f.size = fileSize c L)

structure ObjOk (c : Cfg) (L : Nat) (f : Inode) (o : Obj) : Prop where
  fd     : o.fd ≠ 0
  len    : o.create = true → o.len = L
  hsize  : o.hdr.hsize = c.hdr
  max    : o.hdr.max ≤ L
  cur    : o.hdr.cur ≤ o.hdr.max
  early  : o.phase = .alloced ∨ o.phase = .sized → o.map = none
  fsize  : o.phase ≠ .alloced → f.size = fileSize c L
  opened : o.create = false → f.hdr.hsize ≠ 0
  size   : o.phase ≠ .alloced → c.page ≤ o.size ∧ o.size ≤ fileSize c L
  csize  : o.phase ≠ .alloced → o.create = true → o.size = fileSize c L
  map    : ∀ m, o.map = some m → m.len = o.size ∧ m.writable = o.create
  mapped : o.phase = .mapped → o.create = false → o.map ≠ none
  ready  : o.phase = .ready → o.map ≠ none → f.hdr.hsize ≠ 0
  acc    : ∀ w, o.acc = some w → o.phase = .ready → o.hdr.hsize + o.hdr.max ≤ o.size ∧ (w = true → o.create = true)
  noacc  : o.phase ≠ .ready → o.acc = none

structure Inv (c : Cfg) (sz : Nat → Nat) (own : Nat → Nat) (k : Kern) : Prop where
  names  : ∀ n i, k.names n = some i → own i = n ∧ i < k.next
  inodes : ∀ i, i < k.next → InodeOk c (sz (own i)) (k.inodes i)
  objs   : ∀ u o, k.objs u = some o →
    own o.ino = o.name ∧ o.ino < k.next ∧ ObjOk c (sz o.name) (k.inodes o.ino) o

theorem inv_init (c : Cfg) (sz : Nat → Nat) : Inv c sz (fun _ => 0) {} where
  names := by intro n i h; simp at h
  inodes := by intro i h; simp at h
  objs := by intro u o h; simp at h

theorem touch_none (c : Cfg) (hc : Sane c) (k : Kern) (o : Obj) (m : Mapping) (off n : Nat) (w : Bool)
    (hm : o.map = some m) (hw : w = true → m.writable = true) (h1 : off + n ≤ m.len)
    (h2 : off + n ≤ (k.inodes o.ino).size) : touch c k o off n w = none := by
  unfold touch
  rw [hm]
  have a := le_pages c hc m.len
  have b := le_pages c hc (k.inodes o.ino).size
  have e1 : ¬ ((w && !m.writable) = true) := by cases w <;> simp_all
  have e2 : ¬ (pages c m.len < off + n) := by omega
  have e3 : ¬ (pages c (k.inodes o.ino).size < off + n) := by omega
  simp [e1, e2, e3]

/-- Replacing an object by one that is in order. -/
theorem inv_setObj {c : Cfg} {sz own : Nat → Nat} {k : Kern} (h : Inv c sz own k) (u : Nat) (o o' : Obj)
    (ho : k.objs u = some o) (hn : o'.name = o.name) (hi : o'.ino = o.ino)
    (ok : ObjOk c (sz o.name) (k.inodes o.ino) o') : Inv c sz own (setObj k u o') where
  names := h.names
  inodes := h.inodes
  objs := by
    intro v p hp
    simp only [setObj, upd] at hp
    by_cases e : v = u
    · subst e
      simp only [if_true, Option.some.injEq] at hp
      subst hp
      rw [hn, hi]
      exact ⟨(h.objs _ _ ho).1, (h.objs _ _ ho).2.1, ok⟩
    · rw [if_neg e] at hp
      exact h.objs v p hp

/-- Steps that touch neither names, files nor objects. -/
theorem inv_same {c : Cfg} {sz own : Nat → Nat} {k k' : Kern} (h : Inv c sz own k)
    (e1 : k'.names = k.names) (e2 : k'.inodes = k.inodes) (e3 : k'.next = k.next) (e4 : k'.objs = k.objs) :
    Inv c sz own k' where
  names := by rw [e1, e3]; exact h.names
  inodes := by rw [e2, e3]; exact h.inodes
  objs := by rw [e2, e3, e4]; exact h.objs

/-- What an object needs of its file survives changes of the file that keep it in order. -/
theorem ObjOk.file {c : Cfg} {L : Nat} {f f' : Inode} {o : Obj} (h : ObjOk c L f o)
    (hs : f.size = fileSize c L → f'.size = fileSize c L) (hh : f.hdr.hsize ≠ 0 → f'.hdr.hsize ≠ 0) :
    ObjOk c L f' o where
  fd := h.fd
  len := h.len
  hsize := h.hsize
  max := h.max
  cur := h.cur
  early := h.early
  fsize := fun a => hs (h.fsize a)
  opened := fun a => hh (h.opened a)
  size := h.size
  csize := h.csize
  map := h.map
  mapped := h.mapped
  ready := fun a b => hh (h.ready a b)
  acc := h.acc
  noacc := h.noacc

theorem inv_setInode {c : Cfg} {sz own : Nat → Nat} {k : Kern} (h : Inv c sz own k) (i : Nat) (f : Inode)
    (hf : InodeOk c (sz (own i)) f)
    (hs : (k.inodes i).size = fileSize c (sz (own i)) → f.size = fileSize c (sz (own i)))
    (hh : (k.inodes i).hdr.hsize ≠ 0 → f.hdr.hsize ≠ 0) : Inv c sz own (setInode k i f) where
  names := h.names
  inodes := by
    intro j hj
    simp only [setInode, upd]
    by_cases e : j = i
    · subst e; simpa using hf
    · rw [if_neg e]; exact h.inodes j hj
  objs := by
    intro v p hp
    simp only [setInode] at hp ⊢
    obtain ⟨a, b, ok⟩ := h.objs v p hp
    refine ⟨a, b, ?_⟩
    simp only [upd]
    by_cases e : p.ino = i
    · subst e
      rw [if_pos rfl]
      rw [a] at hs
      exact ok.file hs hh
    · rw [if_neg e]; exact ok

theorem inv_alloc {c : Cfg} {sz own : Nat → Nat} {k : Kern} (h : Inv c sz own k)
    (u name : Nat) (create : Bool) (len fd : Nat) (ok : Bool)
    (hp : Proper sz k (.alloc u name create len fd ok)) :
    ∃ own', Inv c sz own' (doAlloc c k u name create len fd ok) := by
  obtain ⟨h0, h1, h2⟩ := hp
  unfold doAlloc
  cases hu : k.objs u with
  | some o => exact ⟨own, h⟩
  | none =>
    cases ok with
    | false => exact ⟨own, h⟩
    | true =>
      cases hn : k.names name with
      | some i =>
        refine ⟨own, ?_⟩
        obtain ⟨hi1, hi2⟩ := h.names _ _ hn
        have io := h.inodes i hi2
        simp only [Bool.not_true, Bool.false_eq_true, if_false]
        constructor
        · exact h.names
        · exact h.inodes
        · intro v p hp
          simp only [setObj, upd] at hp ⊢
          by_cases e : v = u
          · subst e
            simp only [if_true, Option.some.injEq] at hp
            subst hp
            refine ⟨hi1, hi2, ?_⟩
            constructor <;> simp_all
          · rw [if_neg e] at hp
            exact h.objs v p hp
      | none =>
        cases create with
        | false => exact ⟨own, h⟩
        | true =>
          refine ⟨upd own k.next name, ?_⟩
          simp only [Bool.not_true, Bool.false_eq_true, if_false, if_true]
          constructor
          · intro n i hi
            simp only [setObj, upd] at hi ⊢
            by_cases e : n = name
            · subst e
              simp only [if_true, Option.some.injEq] at hi
              subst hi
              simp
            · rw [if_neg e] at hi
              obtain ⟨a, b⟩ := h.names n i hi
              rw [if_neg (by omega)]
              exact ⟨a, by omega⟩
          · intro i hi
            simp only [setObj, upd] at hi ⊢
            by_cases e : i = k.next
            · subst e
              simp only [if_true]
              exact ⟨Or.inl rfl, Or.inl rfl⟩
            · simp only [e, if_false]
              exact h.inodes i (by omega)
          · intro v p hp
            simp only [setObj, upd] at hp ⊢
            by_cases e : v = u
            · subst e
              simp only [if_true, Option.some.injEq] at hp
              subst hp
              refine ⟨by simp, by simp, ?_⟩
              constructor <;> simp_all
            · rw [if_neg e] at hp
              obtain ⟨a, b, o⟩ := h.objs v p hp
              have e' : p.ino ≠ k.next := by omega
              simp only [e', if_false]
              exact ⟨a, by omega, o⟩

theorem inv_size {c : Cfg} {sz own : Nat → Nat} {k : Kern} (hc : Sane c) (h : Inv c sz own k) (u : Nat)
    (o : Obj) (ho : k.objs u = some o) (hph : o.phase = .alloced) : Inv c sz own (doSize c k u o true) := by
  obtain ⟨h1, h2, ok⟩ := h.objs u o ho
  have io := h.inodes _ h2
  rw [h1] at io
  have pg := page_le_fileSize c (sz o.name)
  have sa := hc
  unfold Sane at sa
  unfold doSize
  rw [if_neg ok.fd]
  cases hcr : o.create with
  | true =>
    simp only [Bool.and_self, if_true]
    have hw : atLeastPage c (wanted c o) = fileSize c (sz o.name) := by
      unfold wanted fileSize; rw [hcr, if_pos rfl, ok.len hcr]
    rw [hw]
    have hk : Inv c sz own (setInode k o.ino { k.inodes o.ino with size := fileSize c (sz o.name) }) := by
      apply inv_setInode h
      · rw [h1]
        refine ⟨Or.inr rfl, ?_⟩
        rcases io.hdr with a | ⟨a, b, d, e⟩
        · exact Or.inl a
        · exact Or.inr ⟨a, b, d, rfl⟩
      · rw [h1]; intro _; rfl
      · intro a; exact a
    have := inv_setObj hk u o { o with phase := .sized, size := fileSize c (sz o.name) } ho rfl rfl (by
      simp only [setInode, upd, if_true]
      constructor
      · exact ok.fd
      · exact ok.len
      · exact ok.hsize
      · exact ok.max
      · exact ok.cur
      · intro _; exact ok.early (Or.inl hph)
      · intro _; rfl
      · simp [hcr]
      · intro _; exact ⟨pg, Nat.le_refl _⟩
      · intro _ _; rfl
      · intro m hm
        have := ok.early (Or.inl hph)
        simp [this] at hm
      · simp
      · simp
      · simp
      · intro _; exact ok.noacc (by simp [hph]))
    exact inv_same this rfl rfl rfl (by simp [setObj, setInode, hcr])
  | false =>
    simp only [Bool.false_and, Bool.false_eq_true, if_false]
    have hw : atLeastPage c (wanted c o) = c.page := by
      unfold wanted atLeastPage; rw [hcr]; simp only [Bool.false_eq_true, if_false]; split <;> omega
    rw [hw]
    have hne := ok.opened hcr
    refine inv_setObj h u o _ ho rfl rfl ?_
    have hfs : (k.inodes o.ino).size = fileSize c (sz o.name) := by
      rcases io.hdr with a | ⟨_, _, _, e⟩
      · rw [a] at hne; simp at hne
      · exact e
    constructor
    · exact ok.fd
    · simp
    · exact ok.hsize
    · exact ok.max
    · exact ok.cur
    · intro _; exact ok.early (Or.inl hph)
    · intro _; exact hfs
    · intro _; exact hne
    · intro _; exact ⟨Nat.le_refl _, pg⟩
    · simp
    · intro m hm
      have := ok.early (Or.inl hph)
      simp [this] at hm
    · simp
    · simp
    · simp
    · intro _; exact ok.noacc (by simp [hph])

theorem inv_map {c : Cfg} {sz own : Nat → Nat} {k : Kern} (h : Inv c sz own k) (u : Nat)
    (o : Obj) (b : Bool) (ho : k.objs u = some o) (hph : o.phase = .sized)
    (hb : o.create = false → b = true) : Inv c sz own (doMap k u o b) := by
  obtain ⟨h1, h2, ok⟩ := h.objs u o ho
  have sz1 := ok.size (by simp [hph])
  have fs := ok.fsize (by simp [hph])
  have cs := ok.csize (by simp [hph])
  have em := ok.early (Or.inr hph)
  have na := ok.noacc (by simp [hph])
  unfold doMap
  cases b with
  | false =>
    have hcr : o.create = true := by cases e : o.create <;> simp_all
    simp only [Bool.not_false, or_true, if_true]
    refine inv_setObj h u o _ ho rfl rfl ?_
    constructor <;> simp_all [ok.fd, ok.hsize, ok.max, ok.cur, ok.len]
  | true =>
    simp only [ok.fd, Bool.not_true, Bool.false_eq_true, or_self, if_false]
    have := inv_setObj h u o { o with phase := .mapped, map := some ⟨o.size, o.create⟩ } ho rfl rfl (by
      have op := ok.opened
      constructor <;> simp_all [ok.fd, ok.hsize, ok.max, ok.cur, ok.len])
    exact inv_same this rfl rfl rfl rfl

theorem inv_header {c : Cfg} {sz own : Nat → Nat} {k : Kern} (hc : Sane c) (h : Inv c sz own k) (u : Nat)
    (o : Obj) (mutex lock : Bool) (ho : k.objs u = some o) (hph : o.phase = .mapped)
    (hl : o.create = true → lock = true) :
    ∃ k', doHeader c k u o mutex lock = .ok k' ∧ Inv c sz own k' := by
  obtain ⟨h1, h2, ok⟩ := h.objs u o ho
  have io := h.inodes _ h2
  rw [h1] at io
  have sz1 := ok.size (by simp [hph])
  have fs := ok.fsize (by simp [hph])
  have cs := ok.csize (by simp [hph])
  have na := ok.noacc (by simp [hph])
  have pg := page_le_fileSize c (sz o.name)
  have hx := hc
  unfold Sane at hx
  unfold doHeader
  cases mutex with
  | false =>
    simp only [Bool.not_false, if_true]
    refine ⟨_, rfl, inv_setObj h u o _ ho rfl rfl ?_⟩
    have op := ok.opened
    have mp := ok.map
    constructor <;> simp_all [ok.fd, ok.hsize, ok.max, ok.cur, ok.len]
  | true =>
    simp only [Bool.not_true, Bool.false_eq_true, if_false]
    cases hcr : o.create with
    | true =>
      simp only [if_true]
      have hlk := hl hcr
      subst hlk
      have hlen := ok.len hcr
      have cur := ok.cur
      have mx := ok.max
      cases hm : o.map with
      | none =>
        simp only [or_true, if_true]
        refine ⟨_, rfl, inv_setObj h u o _ ho rfl rfl ?_⟩
        constructor <;> simp_all [ok.fd, ok.hsize]
        omega
      | some m =>
        obtain ⟨m1, m2⟩ := ok.map m hm
        have csz := cs hcr
        simp only [Bool.not_true, Bool.false_eq_true, reduceCtorEq, or_self, if_false]
        rw [touch_none c hc k _ m 0 c.hdr false (by rfl) (by simp) (by omega) (by simp only []; omega)]
        simp only []
        by_cases hin : (!o.existed) = true ∨ (k.inodes o.ino).hdr.hsize = 0
        · rw [if_pos hin]
          rw [touch_none c hc k _ m 0 c.hdr true (by rfl) (by simp [m2, hcr]) (by omega) (by simp only []; omega)]
          simp only []
          refine ⟨_, rfl, ?_⟩
          have hk : Inv c sz own (setInode k o.ino { k.inodes o.ino with hdr := { o.hdr with max := o.len } }) := by
            apply inv_setInode h
            · rw [h1]
              refine ⟨Or.inr fs, Or.inr ⟨ok.hsize, hlen, ?_, fs⟩⟩
              show o.hdr.cur ≤ sz o.name
              omega
            · rw [h1]; intro a; exact a
            · intro _
              show o.hdr.hsize ≠ 0
              rw [ok.hsize]; omega
          have := inv_setObj hk u o { o with phase := .ready, hdr := { o.hdr with max := o.len }, map := some m, create := true } ho rfl rfl (by
            simp only [setInode, upd, if_true]
            constructor <;> simp_all [ok.fd, ok.hsize]
            · omega
            · omega)
          exact inv_same this rfl rfl rfl rfl
        · rw [if_neg hin]
          have hne : (k.inodes o.ino).hdr.hsize ≠ 0 := fun e => hin (Or.inr e)
          refine ⟨_, rfl, inv_setObj h u o _ ho rfl rfl ?_⟩
          unfold copyHdr
          rw [if_neg hne]
          rcases io.hdr with a | ⟨a, b, d, e⟩
          · rw [a] at hne; simp at hne
          · constructor <;> simp_all [ok.fd, ok.hsize]
    | false =>
      simp only [Bool.false_eq_true, if_false]
      have op := ok.opened hcr
      cases hm : o.map with
      | none => exact absurd hm (ok.mapped hph hcr)
      | some m =>
        obtain ⟨m1, m2⟩ := ok.map m hm
        cases lock with
        | false =>
          simp only [Bool.not_false, if_true]
          refine ⟨_, rfl, inv_setObj h u o _ ho rfl rfl ?_⟩
          constructor <;> simp_all [ok.fd, ok.hsize, ok.max, ok.cur]
        | true =>
          rcases io.hdr with a | ⟨a, b, d, e⟩
          · rw [a] at op; simp at op
          · simp only [Bool.not_true, Bool.false_eq_true, if_false]
            rw [touch_none c hc k _ m 0 2 false (by rfl) (by simp) (by omega) (by simp only []; omega)]
            simp only []
            rw [touch_none c hc k _ m 0 _ false (by rfl) (by simp) (by omega) (by simp only []; omega)]
            simp only []
            refine ⟨_, rfl, inv_setObj h u o _ ho rfl rfl ?_⟩
            unfold copyHdr
            rw [if_neg op]
            constructor <;> simp_all [ok.fd, ok.hsize]


theorem inv_access {c : Cfg} {sz own : Nat → Nat} {k : Kern} (hc : Sane c) (h : Inv c sz own k) (u : Nat)
    (o : Obj) (w b : Bool) (ho : k.objs u = some o) (hw : o.create = false → w = false) :
    ∃ k', doAccess c k u o w b = .ok k' ∧ Inv c sz own k' := by
  obtain ⟨h1, h2, ok⟩ := h.objs u o ho
  have io := h.inodes _ h2
  rw [h1] at io
  have pg := page_le_fileSize c (sz o.name)
  have lf := len_le_fileSize c (sz o.name)
  have hx := hc
  unfold Sane at hx
  unfold doAccess
  by_cases hq : o.phase ≠ .ready ∨ o.map = none
  · rw [if_pos hq]; exact ⟨_, rfl, h⟩
  · rw [if_neg hq]
    have hph : o.phase = .ready := Classical.byContradiction fun e => hq (Or.inl e)
    have hmn : o.map ≠ none := fun e => hq (Or.inr e)
    have sz1 := ok.size (by simp [hph])
    have fs := ok.fsize (by simp [hph])
    have cs := ok.csize (by simp [hph])
    have rd := ok.ready hph hmn
    have hs0 := ok.hsize
    obtain ⟨m, hm⟩ := Option.ne_none_iff_exists'.mp hmn
    obtain ⟨m1, m2⟩ := ok.map m hm
    rw [touch_none c hc k o m 0 _ false hm (by simp) (by omega) (by omega)]
    simp only []
    have hcp : copyHdr o.hdr (k.inodes o.ino).hdr o.hdr.hsize = (k.inodes o.ino).hdr := by
      unfold copyHdr; rw [if_neg (by omega)]
    rw [hcp]
    have op := ok.opened
    have hlen := ok.len
    rcases io.hdr with a | ⟨a, b', d, e⟩
    · rw [a] at rd; simp at rd
    · by_cases hq2 : (k.inodes o.ino).hdr.hsize + (k.inodes o.ino).hdr.max ≤ o.size
      · rw [if_pos hq2]
        refine ⟨_, rfl, inv_setObj h u o _ ho rfl rfl ?_⟩
        constructor <;> simp_all [ok.fd]
        intro hw1; cases hcr : o.create <;> simp_all
      · rw [if_neg hq2]
        have hcr : o.create = false := by
          cases hcr : o.create with
          | false => rfl
          | true => have := cs hcr; omega
        have hal : atLeastPage c ((k.inodes o.ino).hdr.hsize + (k.inodes o.ino).hdr.max) = fileSize c (sz o.name) := by
          unfold fileSize; rw [a, b', Nat.add_comm]
        rw [hal]
        cases b with
        | true =>
          simp only [if_true]
          refine ⟨_, rfl, ?_⟩
          have := inv_setObj h u o { o with hdr := (k.inodes o.ino).hdr, acc := some w, size := fileSize c (sz o.name), map := some ⟨fileSize c (sz o.name), false⟩ } ho rfl rfl (by
            constructor <;> simp_all [ok.fd]
            omega)
          exact inv_same this rfl rfl rfl rfl
        | false =>
          simp only [Bool.false_eq_true, if_false]
          refine ⟨_, rfl, ?_⟩
          have := inv_setObj h u o { o with hdr := (k.inodes o.ino).hdr, acc := some w, size := fileSize c (sz o.name), map := none } ho rfl rfl (by
            constructor <;> simp_all [ok.fd]
            omega)
          exact inv_same this rfl rfl rfl rfl

theorem inv_read {c : Cfg} {sz own : Nat → Nat} {k : Kern} (hc : Sane c) (h : Inv c sz own k) (u n : Nat)
    (o : Obj) (ho : k.objs u = some o) : ∃ k', doRead c k u n o = .ok k' ∧ Inv c sz own k' := by
  obtain ⟨h1, h2, ok⟩ := h.objs u o ho
  unfold doRead
  by_cases hq : o.phase ≠ .ready ∨ o.acc ≠ some false ∨ n = 0 ∨ o.hdr.cur < n ∨ o.map = none
  · rw [if_pos hq]; exact ⟨_, rfl, inv_same h rfl rfl rfl rfl⟩
  · rw [if_neg hq]
    simp only [not_or, ne_eq, Classical.not_not] at hq
    obtain ⟨hph, ha, hn, hcur, hmn⟩ := hq
    obtain ⟨m, hm⟩ := Option.ne_none_iff_exists'.mp hmn
    obtain ⟨m1, m2⟩ := ok.map m hm
    have a := (ok.acc _ ha hph).1
    have b := ok.size (by simp [hph])
    have d := ok.fsize (by simp [hph])
    have e := ok.cur
    rw [touch_none c hc k o m _ n false hm (by simp) (by omega) (by omega)]
    exact ⟨_, rfl, inv_same h rfl rfl rfl rfl⟩

theorem inv_write {c : Cfg} {sz own : Nat → Nat} {k : Kern} (hc : Sane c) (h : Inv c sz own k) (u n : Nat)
    (o : Obj) (ho : k.objs u = some o) : ∃ k', doWrite c k u n o = .ok k' ∧ Inv c sz own k' := by
  obtain ⟨h1, h2, ok⟩ := h.objs u o ho
  unfold doWrite
  by_cases hq : o.phase ≠ .ready ∨ o.acc ≠ some true ∨ n = 0 ∨ o.hdr.max < n ∨ o.map = none
  · rw [if_pos hq]; exact ⟨_, rfl, inv_same h rfl rfl rfl rfl⟩
  · rw [if_neg hq]
    simp only [not_or, ne_eq, Classical.not_not] at hq
    obtain ⟨hph, ha, hn, hcur, hmn⟩ := hq
    obtain ⟨m, hm⟩ := Option.ne_none_iff_exists'.mp hmn
    obtain ⟨m1, m2⟩ := ok.map m hm
    obtain ⟨a1, a2⟩ := ok.acc _ ha hph
    have hcr := a2 rfl
    have b := ok.size (by simp [hph])
    have d := ok.fsize (by simp [hph])
    have mx := ok.max
    have hs := ok.hsize
    have rd := ok.ready hph hmn
    have hx := hc
    unfold Sane at hx
    rw [touch_none c hc k o m 0 c.hdr true hm (by simp [m2, hcr]) (by omega) (by omega)]
    simp only []
    rw [touch_none c hc k o m _ n true hm (by simp [m2, hcr]) (by omega) (by omega)]
    simp only []
    refine ⟨_, rfl, ?_⟩
    have io := h.inodes _ h2
    rw [h1] at io
    have hk : Inv c sz own (setInode k o.ino { k.inodes o.ino with hdr := { (k.inodes o.ino).hdr with cur := n } }) := by
      apply inv_setInode h
      · rw [h1]
        rcases io.hdr with x | ⟨x1, x2, x3, x4⟩
        · rw [x] at rd; simp at rd
        · exact ⟨io.size, Or.inr ⟨x1, x2, by show n ≤ _; omega, x4⟩⟩
      · rw [h1]; intro x; exact x
      · intro x; exact x
    have := inv_setObj hk u o { o with hdr := { o.hdr with cur := n } } ho rfl rfl (by
      simp only [setInode, upd, if_true]
      have op := ok.opened
      have csz := ok.csize
      have ln := ok.len
      have nc := ok.noacc
      constructor <;> simp_all [ok.fd])
    exact inv_same this rfl rfl rfl rfl

theorem inv_destroy {c : Cfg} {sz own : Nat → Nat} {k : Kern} (h : Inv c sz own k) (u : Nat) (r : Bool)
    (o : Obj) : Inv c sz own (doDestroy k u r o) := by
  unfold doDestroy
  split
  · exact h
  · constructor
    · intro n i hi
      simp only at hi
      apply h.names n i
      split at hi
      · simp only [upd] at hi
        split at hi
        · simp at hi
        · exact hi
      · exact hi
    · exact h.inodes
    · intro v p hp
      simp only [upd] at hp
      split at hp
      · simp at hp
      · exact h.objs v p hp

theorem inv_release {c : Cfg} {sz own : Nat → Nat} {k : Kern} (h : Inv c sz own k) (u : Nat)
    (o : Obj) (ho : k.objs u = some o) : Inv c sz own (setObj k u { o with acc := none }) := by
  obtain ⟨h1, h2, ok⟩ := h.objs u o ho
  refine inv_setObj h u o _ ho rfl rfl ?_
  exact ⟨ok.fd, ok.len, ok.hsize, ok.max, ok.cur, ok.early, ok.fsize, ok.opened, ok.size, ok.csize, ok.map, ok.mapped, ok.ready, by simp, by simp⟩

theorem inv_step {c : Cfg} {sz own : Nat → Nat} {k : Kern} (hc : Sane c) (h : Inv c sz own k) (s : Step)
    (hp : Proper sz k s) : ∃ own' k', step c k s = .ok k' ∧ Inv c sz own' k' := by
  cases s with
  | alloc u name create len fd ok =>
    obtain ⟨own', h'⟩ := inv_alloc h u name create len fd ok hp
    exact ⟨own', _, rfl, h'⟩
  | size u ok =>
    refine ⟨own, ?_⟩
    simp only [step]
    cases ho : k.objs u with
    | none => exact ⟨_, rfl, h⟩
    | some o =>
      simp only []
      by_cases hph : o.phase = .alloced
      · rw [if_pos hph]
        have : ok = true := hp
        subst this
        exact ⟨_, rfl, inv_size hc h u o ho hph⟩
      · rw [if_neg hph]; exact ⟨_, rfl, h⟩
  | map u ok =>
    refine ⟨own, ?_⟩
    simp only [step]
    cases ho : k.objs u with
    | none => exact ⟨_, rfl, h⟩
    | some o =>
      simp only []
      by_cases hph : o.phase = .sized
      · rw [if_pos hph]; exact ⟨_, rfl, inv_map h u o ok ho hph (hp o ho)⟩
      · rw [if_neg hph]; exact ⟨_, rfl, h⟩
  | header u mutex lock =>
    refine ⟨own, ?_⟩
    simp only [step]
    cases ho : k.objs u with
    | none => exact ⟨_, rfl, h⟩
    | some o =>
      simp only []
      by_cases hph : o.phase = .mapped
      · rw [if_pos hph]; exact inv_header hc h u o mutex lock ho hph (hp o ho)
      · rw [if_neg hph]; exact ⟨_, rfl, h⟩
  | access u w ok =>
    refine ⟨own, ?_⟩
    simp only [step]
    cases ho : k.objs u with
    | none => exact ⟨_, rfl, h⟩
    | some o => exact inv_access hc h u o w ok ho (hp o ho)
  | read u n =>
    refine ⟨own, ?_⟩
    simp only [step]
    cases ho : k.objs u with
    | none => exact ⟨_, rfl, inv_same h rfl rfl rfl rfl⟩
    | some o => exact inv_read hc h u n o ho
  | write u n =>
    refine ⟨own, ?_⟩
    simp only [step]
    cases ho : k.objs u with
    | none => exact ⟨_, rfl, inv_same h rfl rfl rfl rfl⟩
    | some o => exact inv_write hc h u n o ho
  | release u =>
    refine ⟨own, ?_⟩
    simp only [step]
    cases ho : k.objs u with
    | none => exact ⟨_, rfl, h⟩
    | some o => exact ⟨_, rfl, inv_release h u o ho⟩
  | destroy u r =>
    refine ⟨own, ?_⟩
    simp only [step]
    cases ho : k.objs u with
    | none => exact ⟨_, rfl, h⟩
    | some o => exact ⟨_, rfl, inv_destroy h u r o⟩

theorem inv_run {c : Cfg} {sz : Nat → Nat} (hc : Sane c) (steps : List Step) :
    ∀ {own : Nat → Nat} {k : Kern}, Inv c sz own k → ProperRun c sz k steps →
      ∃ own' k', run c k steps = .ok k' ∧ Inv c sz own' k' := by
  induction steps with
  | nil => intro own k h _; exact ⟨own, k, rfl, h⟩
  | cons s ss ih =>
    intro own k h hp
    obtain ⟨own', k', e, h'⟩ := inv_step hc h s hp.1
    obtain ⟨own'', k'', e2, h''⟩ := ih h' (hp.2 k' e)
    exact ⟨own'', k'', by simp only [run, e]; exact e2, h''⟩

/-- C115: if all creators of a segment ask for the same length and it is opened only after it was
created, no process is ever killed by its use, whatever the interleaving of any number of processes
creating, opening, reading, writing, removing and destroying any number of segments.  (Without these
conditions it is: `C115_violated_…` below.) -/
theorem C115_no_crash_partial (c : Cfg) (sz : Nat → Nat) (hc : Sane c) (steps : List Step)
    (hp : ProperRun c sz {} steps) : ∃ k, run c {} steps = .ok k := by
  obtain ⟨_, k, e, _⟩ := inv_run hc steps (inv_init c sz) hp
  exact ⟨k, e⟩

/-- Two creators (processes 0 and 1) and a process that opens (2). -/
def demo : List Step :=
  [.alloc 0 7 true 5000 3 true, .size 0 true, .map 0 true, .alloc 1 7 true 5000 5 true, .header 0 true true,
   .alloc 2 7 false 0 4 true, .size 1 true, .size 2 true, .map 2 true, .map 1 true, .header 2 true true,
   .header 1 true true, .access 1 true true, .write 1 5000, .release 1, .access 2 false true, .read 2 5000,
   .release 2, .destroy 1 true, .access 0 true true, .write 0 12, .release 0, .access 2 false true,
   .read 2 12, .read 2 13, .destroy 0 true, .release 2, .destroy 2 false]

def logOf : Except Crash Kern → Option (List (Nat × Nat))
  | .ok k => some k.log
  | .error _ => none

/-- Open descriptors and mappings at the end. -/
def heldOf : Except Crash Kern → Option (List (Nat × Nat) × List (Nat × Nat))
  | .ok k => some (k.fds, k.maps)
  | .error _ => none

def crashOf : Except Crash Kern → Option Crash
  | .ok _ => none
  | .error e => some e

def properB (sz : Nat → Nat) (k : Kern) : Step → Bool
  | .alloc _ name create len fd _ =>
    fd != 0 && (if create then len == sz name else
      (match k.names name with | none => true | some i => (k.inodes i).hdr.hsize != 0))
  | .size _ ok => ok
  | .map u ok => (match k.objs u with | none => true | some o => o.create || ok)
  | .header u _ lock => (match k.objs u with | none => true | some o => !o.create || lock)
  | .access u write _ => (match k.objs u with | none => true | some o => o.create || !write)
  | _ => true

def properRunB (c : Cfg) (sz : Nat → Nat) (k : Kern) : List Step → Bool
  | [] => true
  | s :: ss => properB sz k s && (match step c k s with | .error _ => true | .ok k' => properRunB c sz k' ss)

theorem properB_sound (sz : Nat → Nat) (k : Kern) (s : Step) (h : properB sz k s = true) : Proper sz k s := by
  cases s with
  | alloc u name create len fd ok =>
    simp only [properB, Bool.and_eq_true, bne_iff_ne, ne_eq] at h
    refine ⟨h.1, ?_, ?_⟩
    · intro e; subst e; simpa using h.2
    · intro e i hi; subst e; simpa [hi] using h.2
  | size u ok => exact h
  | map u ok =>
    intro o ho e
    simp only [properB, ho, e, Bool.false_or] at h
    exact h
  | header u m l =>
    intro o ho e
    simp only [properB, ho, e, Bool.not_true, Bool.false_or] at h
    exact h
  | access u w ok =>
    intro o ho e
    simp only [properB, ho, e, Bool.false_or, Bool.not_eq_true'] at h
    exact h
  | _ => trivial

theorem properRunB_sound (c : Cfg) (sz : Nat → Nat) (steps : List Step) (k : Kern)
    (h : properRunB c sz k steps = true) : ProperRun c sz k steps := by
  induction steps generalizing k with
  | nil => trivial
  | cons s ss ih =>
    simp only [properRunB, Bool.and_eq_true] at h
    refine ⟨properB_sound sz k s h.1, ?_⟩
    intro k' e
    rw [e] at h
    exact ih k' h.2

/-- The hypotheses of `C115_no_crash_partial` can be met. -/
example : ProperRun linux (fun _ => 5000) {} demo := properRunB_sound _ _ _ _ (by decide +kernel)

/-- … and of `C115_exchange_partial`, after the first twelve steps. -/
example : (match run linux {} (demo.take 12) with
    | .ok k => (k.objs 1).map (fun o => (o.phase, o.create, o.map.isSome, o.ino)) = some (.ready, true, true, 0) ∧
        (k.objs 2).map (fun o => (o.phase, o.create, o.map.isSome, o.ino)) = some (.ready, false, true, 0)
    | .error _ => False) := ⟨by decide +kernel, by decide +kernel⟩

/-- All accesses of `demo` succeed but the one
that asks for too much. -/
example : logOf (run linux {} demo) = some [(1, 5000), (2, 5000), (0, 12), (2, 12), (2, 0)] := by
  decide +kernel

/-! ## What one process writes the others can read -/

theorem step_access {c : Cfg} {sz own : Nat → Nat} {k : Kern} (hc : Sane c) (h : Inv c sz own k) (u : Nat)
    (o : Obj) (w : Bool) (ho : k.objs u = some o) (hph : o.phase = .ready) (hm : o.map ≠ none)
    (hw : o.create = false → w = false) :
    ∃ k', step c k (.access u w true) = .ok k' ∧ k'.log = k.log ∧ k'.inodes = k.inodes ∧
      (∀ v, v ≠ u → k'.objs v = k.objs v) ∧
      ∃ o', k'.objs u = some o' ∧ o'.phase = .ready ∧ o'.map ≠ none ∧ o'.acc = some w ∧ o'.ino = o.ino ∧
        o'.name = o.name ∧ o'.hdr = (k.inodes o.ino).hdr ∧ Inv c sz own k' := by
  obtain ⟨k', e, h'⟩ := inv_access hc h u o w true ho hw
  have es : step c k (.access u w true) = .ok k' := by simp only [step, ho]; exact e
  refine ⟨k', es, ?_⟩
  obtain ⟨h1, h2, ok⟩ := h.objs u o ho
  have rd := ok.ready hph hm
  have hs0 := ok.hsize
  have hx := hc
  unfold Sane at hx
  unfold doAccess at e
  have hq : ¬ (o.phase ≠ .ready ∨ o.map = none) := by simp [hph, hm]
  rw [if_neg hq] at e
  have hcp : copyHdr o.hdr (k.inodes o.ino).hdr o.hdr.hsize = (k.inodes o.ino).hdr := by
    unfold copyHdr; rw [if_neg (by omega)]
  simp only [hcp] at e
  cases ht : touch c k o 0 o.hdr.hsize false with
  | some x => rw [ht] at e; simp at e
  | none =>
    rw [ht] at e
    simp only [if_true] at e
    split at e
    · simp only [Except.ok.injEq] at e
      subst e
      refine ⟨rfl, rfl, ?_, _, if_pos rfl, hph, hm, rfl, rfl, rfl, rfl, h'⟩
      intro v hv; simp [setObj, upd, hv]
    · simp only [Except.ok.injEq] at e
      subst e
      refine ⟨rfl, rfl, ?_, _, if_pos rfl, hph, by simp, rfl, rfl, rfl, rfl, h'⟩
      intro v hv; simp [setObj, upd, hv]

/-- What a creator writes, any other user of the same file can read, in full: after any proper run, for
every length up to the length of the segment. -/
theorem C115_exchange_partial (c : Cfg) (sz : Nat → Nat) (hc : Sane c) (steps : List Step)
    (hp : ProperRun c sz {} steps) (k : Kern) (hr : run c {} steps = .ok k) (w r n : Nat) (ow or : Obj)
    (hne : w ≠ r) (hw : k.objs w = some ow) (hr' : k.objs r = some or) (hwp : ow.phase = .ready)
    (hrp : or.phase = .ready) (hwm : ow.map ≠ none) (hrm : or.map ≠ none) (hcr : ow.create = true)
    (hsame : ow.ino = or.ino) (hn : 0 < n) (hle : n ≤ sz ow.name) :
    logOf (run c k [.access w true true, .write w n, .release w, .access r false true, .read r n])
      = some (k.log ++ [(w, n), (r, n)]) := by
  obtain ⟨own, k0, e0, h⟩ := inv_run hc steps (inv_init c sz) hp
  rw [hr] at e0
  cases e0
  obtain ⟨k1, e1, l1, i1, f1, o1, ho1, ph1, m1, a1, in1, nm1, hd1, h1⟩ :=
    step_access hc h w ow true hw hwp hwm (by simp [hcr])
  simp only [run, e1]
  -- writing
  obtain ⟨k2, e2, h2⟩ := inv_write hc h1 w n o1 ho1
  have es2 : step c k1 (.write w n) = .ok k2 := by simp only [step, ho1]; exact e2
  simp only [es2]
  have ok := (h.objs w ow hw).2.2
  have io := h.inodes _ (h.objs w ow hw).2.1
  rw [(h.objs w ow hw).1] at io
  have rd := ok.ready hwp hwm
  have hmax : (k.inodes ow.ino).hdr.max = sz ow.name := by
    rcases io.hdr with a | ⟨_, b, _, _⟩
    · rw [a] at rd; simp at rd
    · exact b
  unfold doWrite at e2
  have hq : ¬ (o1.phase ≠ .ready ∨ o1.acc ≠ some true ∨ n = 0 ∨ o1.hdr.max < n ∨ o1.map = none) := by
    simp only [ph1, a1, m1, hd1, hmax]; simp; omega
  rw [if_neg hq] at e2
  cases t1 : touch c k1 o1 0 c.hdr true with
  | some x => rw [t1] at e2; simp at e2
  | none =>
  cases t2 : touch c k1 o1 o1.hdr.hsize n true with
  | some x => rw [t1, t2] at e2; simp at e2
  | none =>
  rw [t1, t2] at e2
  simp only [Except.ok.injEq] at e2
  have l2 : k2.log = k1.log ++ [(w, n)] := by rw [← e2]; simp [result, setInode, setObj]
  have f2 : k2.objs r = k1.objs r := by
    rw [← e2]; simp [result, setInode, setObj, upd, Ne.symm hne]
  have c2 : (k2.inodes or.ino).hdr.cur = n := by
    rw [← e2, ← hsame, ← in1]; simp [result, setInode, setObj, upd]
  have g2 : ∃ o2, k2.objs w = some o2 := by
    rw [← e2]; exact ⟨_, if_pos rfl⟩
  obtain ⟨o2, ho2⟩ := g2
  -- releasing
  have es3 : step c k2 (.release w) = .ok (setObj k2 w { o2 with acc := none }) := by simp only [step, ho2]
  simp only [es3]
  have h3 := inv_release h2 w o2 ho2
  have or3 : (setObj k2 w { o2 with acc := none }).objs r = some or := by
    simp only [setObj, upd, Ne.symm hne, if_false]
    rw [f2, f1 r (Ne.symm hne), hr']
  have hcf : or.create = false → false = false := fun _ => rfl
  obtain ⟨k4, e4, l4, i4, f4, o4, ho4, ph4, m4, a4, in4, nm4, hd4, h4⟩ :=
    step_access hc h3 r or false or3 hrp hrm hcf
  simp only [e4]
  obtain ⟨k5, e5, h5⟩ := inv_read hc h4 r n o4 ho4
  have es5 : step c k4 (.read r n) = .ok k5 := by simp only [step, ho4]; exact e5
  simp only [es5, logOf]
  unfold doRead at e5
  have hcur : o4.hdr.cur = n := by rw [hd4]; exact c2
  have hq5 : ¬ (o4.phase ≠ .ready ∨ o4.acc ≠ some false ∨ n = 0 ∨ o4.hdr.cur < n ∨ o4.map = none) := by
    simp only [ph4, a4, m4, hcur]; simp; omega
  rw [if_neg hq5] at e5
  cases t5 : touch c k4 o4 o4.hdr.hsize n false with
  | some x => rw [t5] at e5; simp at e5
  | none =>
  rw [t5] at e5
  simp only [Except.ok.injEq] at e5
  rw [← e5]
  simp only [result, l4, setObj, l2, l1, List.append_assoc, List.cons_append, List.nil_append]

/-! ## Descriptors and mappings are given back -/

theorem erase_fst (l : List (Nat × Nat)) (hn : (l.map Prod.fst).Nodup) (u x : Nat) (h : (u, x) ∈ l)
    (p : Nat × Nat) (hp : p ∈ l.erase (u, x)) : p ∈ l ∧ p.1 ≠ u := by
  induction l with
  | nil => simp at h
  | cons a l ih =>
    simp only [List.map_cons, List.nodup_cons] at hn
    by_cases e : a = (u, x)
    · subst e
      simp only [List.erase_cons_head] at hp
      refine ⟨List.mem_cons_of_mem _ hp, ?_⟩
      intro e
      exact hn.1 (List.mem_map.mpr ⟨p, hp, e⟩)
    · rw [List.erase_cons_tail (by simpa using e)] at hp
      have hmem : (u, x) ∈ l := by
        rcases List.mem_cons.mp h with h | h
        · exact absurd h.symm e
        · exact h
      rcases List.mem_cons.mp hp with hp | hp
      · subst hp
        refine ⟨List.mem_cons_self, ?_⟩
        intro e2
        exact hn.1 (List.mem_map.mpr ⟨_, hmem, e2.symm⟩)
      · obtain ⟨a1, a2⟩ := ih hn.2 hmem hp
        exact ⟨List.mem_cons_of_mem _ a1, a2⟩

theorem erase_nodup (l : List (Nat × Nat)) (hn : (l.map Prod.fst).Nodup) (p : Nat × Nat) :
    ((l.erase p).map Prod.fst).Nodup := hn.sublist (List.erase_sublist.map _)

theorem mem_erase_other (l : List (Nat × Nat)) (u x v y : Nat) (h : v ≠ u) :
    (v, y) ∈ l.erase (u, x) ↔ (v, y) ∈ l := by
  apply List.mem_erase_of_ne
  intro e
  exact h (Prod.mk.inj e).1

/-- The ledger of the kernel: one descriptor for each user, and one mapping for each mapped one. -/
structure Held (k : Kern) : Prop where
  fdN   : (k.fds.map Prod.fst).Nodup
  fd1   : ∀ p ∈ k.fds, ∃ o, k.objs p.1 = some o ∧ o.fd = p.2
  fd2   : ∀ u o, k.objs u = some o → (u, o.fd) ∈ k.fds ∧ o.fd ≠ 0
  mapN  : (k.maps.map Prod.fst).Nodup
  map1  : ∀ p ∈ k.maps, ∃ o, k.objs p.1 = some o ∧ o.map ≠ none ∧ o.size = p.2
  map2  : ∀ u o, k.objs u = some o → o.map ≠ none → (u, o.size) ∈ k.maps
  early : ∀ u o, k.objs u = some o → o.phase = .alloced ∨ o.phase = .sized → o.map = none

/-- Replacing an object by one with the same resources. -/
theorem Held.setObj {k : Kern} (h : Held k) (u : Nat) (o o' : Obj) (ho : k.objs u = some o)
    (e1 : o'.fd = o.fd) (e2 : o'.map = none ↔ o.map = none) (e3 : o.map ≠ none → o'.size = o.size)
    (e4 : o'.phase = .alloced ∨ o'.phase = .sized → o'.map = none) : Held (setObj k u o') where
  fdN := h.fdN
  fd1 := by
    intro p hp
    obtain ⟨q, hq1, hq2⟩ := h.fd1 p hp
    simp only [Posix.setObj, upd]
    by_cases e : p.1 = u
    · rw [if_pos e]; rw [e, ho] at hq1; cases hq1; exact ⟨o', rfl, by rw [e1, hq2]⟩
    · rw [if_neg e]; exact ⟨q, hq1, hq2⟩
  fd2 := by
    intro v q hq
    simp only [Posix.setObj, upd] at hq ⊢
    by_cases e : v = u
    · subst e; simp only [if_true, Option.some.injEq] at hq; subst hq; rw [e1]; exact h.fd2 _ _ ho
    · rw [if_neg e] at hq; exact h.fd2 _ _ hq
  mapN := h.mapN
  map1 := by
    intro p hp
    obtain ⟨q, hq1, hq2, hq3⟩ := h.map1 p hp
    simp only [Posix.setObj, upd]
    by_cases e : p.1 = u
    · rw [if_pos e]; rw [e, ho] at hq1; cases hq1
      exact ⟨o', rfl, fun x => hq2 (e2.mp x), by rw [e3 hq2, hq3]⟩
    · rw [if_neg e]; exact ⟨q, hq1, hq2, hq3⟩
  map2 := by
    intro v q hq
    simp only [Posix.setObj, upd] at hq ⊢
    by_cases e : v = u
    · subst e; simp only [if_true, Option.some.injEq] at hq; subst hq
      intro hm
      have hm' : o.map ≠ none := fun x => hm (e2.mpr x)
      rw [e3 hm']; exact h.map2 _ _ ho hm'
    · rw [if_neg e] at hq; exact h.map2 _ _ hq
  early := by
    intro v q hq
    simp only [Posix.setObj, upd] at hq
    by_cases e : v = u
    · subst e; simp only [if_true, Option.some.injEq] at hq; subst hq; exact e4
    · rw [if_neg e] at hq; exact h.early _ _ hq

theorem Held.same {k k' : Kern} (h : Held k) (e1 : k'.objs = k.objs) (e2 : k'.fds = k.fds)
    (e3 : k'.maps = k.maps) : Held k' := by
  obtain ⟨a, b, d, e, f, g, i⟩ := h
  constructor
  · rw [e2]; exact a
  · rw [e1, e2]; exact b
  · rw [e1, e2]; exact d
  · rw [e3]; exact e
  · rw [e1, e3]; exact f
  · rw [e1, e3]; exact g
  · rw [e1]; exact i

theorem not_mem_fst {l : List (Nat × Nat)} {u : Nat} (h : ∀ p ∈ l, p.1 ≠ u) : u ∉ l.map Prod.fst := by
  intro x
  obtain ⟨p, hp, e⟩ := List.mem_map.mp x
  exact h p hp e

/-- A new user with a new descriptor. -/
theorem Held.new {k : Kern} (h : Held k) (u : Nat) (o : Obj) (hu : k.objs u = none) (hf : o.fd ≠ 0)
    (hm : o.map = none) (k' : Kern) (e1 : k'.objs = upd k.objs u (some o))
    (e2 : k'.fds = (u, o.fd) :: k.fds) (e3 : k'.maps = k.maps) : Held k' := by
  have nf : ∀ p ∈ k.fds, p.1 ≠ u := by
    intro p hp e
    obtain ⟨q, hq, _⟩ := h.fd1 p hp
    rw [e, hu] at hq; simp at hq
  have nm : ∀ p ∈ k.maps, p.1 ≠ u := by
    intro p hp e
    obtain ⟨q, hq, _⟩ := h.map1 p hp
    rw [e, hu] at hq; simp at hq
  constructor
  · rw [e2]; simp only [List.map_cons, List.nodup_cons]; exact ⟨not_mem_fst nf, h.fdN⟩
  · intro p hp
    rw [e2] at hp
    rw [e1]
    simp only [upd]
    rcases List.mem_cons.mp hp with hp | hp
    · subst hp; simp
    · rw [if_neg (nf p hp)]; exact h.fd1 p hp
  · intro v q hq
    rw [e1] at hq
    rw [e2]
    simp only [upd] at hq
    by_cases e : v = u
    · subst e; simp only [if_true, Option.some.injEq] at hq; subst hq; exact ⟨List.mem_cons_self, hf⟩
    · rw [if_neg e] at hq
      obtain ⟨a, b⟩ := h.fd2 _ _ hq
      exact ⟨List.mem_cons_of_mem _ a, b⟩
  · rw [e3]; exact h.mapN
  · intro p hp
    rw [e3] at hp
    rw [e1]
    simp only [upd]
    rw [if_neg (nm p hp)]; exact h.map1 p hp
  · intro v q hq
    rw [e1] at hq
    rw [e3]
    simp only [upd] at hq
    by_cases e : v = u
    · subst e; simp only [if_true, Option.some.injEq] at hq; subst hq; intro x; exact absurd hm x
    · rw [if_neg e] at hq; exact h.map2 _ _ hq
  · intro v q hq
    rw [e1] at hq
    simp only [upd] at hq
    by_cases e : v = u
    · subst e; simp only [if_true, Option.some.injEq] at hq; subst hq; intro _; exact hm
    · rw [if_neg e] at hq; exact h.early _ _ hq

/-- A user whose mapping is replaced: the new one is entered, the old one (if any) is taken out. -/
theorem Held.remap {k : Kern} (h : Held k) (u : Nat) (o o' : Obj) (ho : k.objs u = some o)
    (e1 : o'.fd = o.fd) (ep : ¬ (o'.phase = .alloced ∨ o'.phase = .sized)) (k' : Kern)
    (f1 : k'.objs = upd k.objs u (some o')) (f2 : k'.fds = k.fds)
    (f3 : (o'.map ≠ none ∧ k'.maps = (u, o'.size) :: (if o.map = none then k.maps else k.maps.erase (u, o.size))) ∨
      (o'.map = none ∧ k'.maps = (if o.map = none then k.maps else k.maps.erase (u, o.size)))) : Held k' := by
  have base : ∀ l, l = (if o.map = none then k.maps else k.maps.erase (u, o.size)) →
      (l.map Prod.fst).Nodup ∧ (∀ p ∈ l, p ∈ k.maps ∧ p.1 ≠ u) ∧
      (∀ v y, v ≠ u → ((v, y) ∈ l ↔ (v, y) ∈ k.maps)) := by
    intro l hl
    subst hl
    by_cases hm : o.map = none
    · simp only [if_pos hm]
      refine ⟨h.mapN, ?_, fun _ _ _ => by simp⟩
      intro p hp
      refine ⟨hp, ?_⟩
      intro e
      obtain ⟨q, hq, hq2, _⟩ := h.map1 p hp
      rw [e, ho] at hq; cases hq; exact hq2 hm
    · simp only [if_neg hm]
      exact ⟨erase_nodup _ h.mapN _, fun p hp => erase_fst _ h.mapN u _ (h.map2 _ _ ho hm) p hp,
        fun v y hv => mem_erase_other _ _ _ _ _ hv⟩
  obtain ⟨b1, b2, b3⟩ := base _ rfl
  constructor
  · rw [f2]; exact h.fdN
  · intro p hp
    rw [f2] at hp
    rw [f1]
    simp only [upd]
    obtain ⟨q, hq1, hq2⟩ := h.fd1 p hp
    by_cases e : p.1 = u
    · rw [if_pos e]; rw [e, ho] at hq1; cases hq1; exact ⟨o', rfl, by rw [e1, hq2]⟩
    · rw [if_neg e]; exact ⟨q, hq1, hq2⟩
  · intro v q hq
    rw [f1] at hq
    rw [f2]
    simp only [upd] at hq
    by_cases e : v = u
    · subst e; simp only [if_true, Option.some.injEq] at hq; subst hq; rw [e1]; exact h.fd2 _ _ ho
    · rw [if_neg e] at hq; exact h.fd2 _ _ hq
  · rcases f3 with ⟨_, f3⟩ | ⟨_, f3⟩
    · rw [f3]; simp only [List.map_cons, List.nodup_cons]
      exact ⟨not_mem_fst (fun p hp => (b2 p hp).2), b1⟩
    · rw [f3]; exact b1
  · intro p hp
    rw [f1]
    simp only [upd]
    have old : p ∈ (if o.map = none then k.maps else k.maps.erase (u, o.size)) →
        ∃ q, (if p.1 = u then some o' else k.objs p.1) = some q ∧ q.map ≠ none ∧ q.size = p.2 := by
      intro hp
      obtain ⟨c1, c2⟩ := b2 p hp
      rw [if_neg c2]; exact h.map1 p c1
    rcases f3 with ⟨f4, f3⟩ | ⟨_, f3⟩
    · rw [f3] at hp
      rcases List.mem_cons.mp hp with hp | hp
      · subst hp; simp only [if_true]; exact ⟨o', rfl, f4, rfl⟩
      · exact old hp
    · rw [f3] at hp; exact old hp
  · intro v q hq hm
    rw [f1] at hq
    simp only [upd] at hq
    by_cases e : v = u
    · subst e; simp only [if_true, Option.some.injEq] at hq; subst hq
      rcases f3 with ⟨_, f3⟩ | ⟨f4, _⟩
      · rw [f3]; exact List.mem_cons_self
      · exact absurd f4 hm
    · rw [if_neg e] at hq
      have x := (b3 v q.size e).mpr (h.map2 _ _ hq hm)
      rcases f3 with ⟨_, f3⟩ | ⟨_, f3⟩
      · rw [f3]; exact List.mem_cons_of_mem _ x
      · rw [f3]; exact x
  · intro v q hq
    rw [f1] at hq
    simp only [upd] at hq
    by_cases e : v = u
    · subst e; simp only [if_true, Option.some.injEq] at hq; subst hq; intro x; exact absurd x ep
    · rw [if_neg e] at hq; exact h.early _ _ hq

/-- A user that gives everything back. -/
theorem Held.gone {k : Kern} (h : Held k) (u : Nat) (o : Obj) (ho : k.objs u = some o) (k' : Kern)
    (f1 : k'.objs = upd k.objs u none) (f2 : k'.fds = k.fds.erase (u, o.fd))
    (f3 : k'.maps = (if o.map = none then k.maps else k.maps.erase (u, o.size))) : Held k' := by
  obtain ⟨g1, g2⟩ := h.fd2 _ _ ho
  have b1 : (k'.maps.map Prod.fst).Nodup := by
    rw [f3]; split
    · exact h.mapN
    · exact erase_nodup _ h.mapN _
  have b2 : ∀ p ∈ k'.maps, p ∈ k.maps ∧ p.1 ≠ u := by
    intro p hp
    rw [f3] at hp
    by_cases hm : o.map = none
    · rw [if_pos hm] at hp
      refine ⟨hp, ?_⟩
      intro e
      obtain ⟨q, hq, hq2, _⟩ := h.map1 p hp
      rw [e, ho] at hq; cases hq; exact hq2 hm
    · rw [if_neg hm] at hp
      exact erase_fst _ h.mapN u _ (h.map2 _ _ ho hm) p hp
  constructor
  · rw [f2]; exact erase_nodup _ h.fdN _
  · intro p hp
    rw [f2] at hp
    obtain ⟨a, b⟩ := erase_fst _ h.fdN u _ g1 p hp
    rw [f1]; simp only [upd]; rw [if_neg b]; exact h.fd1 p a
  · intro v q hq
    rw [f1] at hq; simp only [upd] at hq
    by_cases e : v = u
    · simp [e] at hq
    · rw [if_neg e] at hq
      obtain ⟨a, b⟩ := h.fd2 _ _ hq
      rw [f2]
      exact ⟨(mem_erase_other _ _ _ _ _ e).mpr a, b⟩
  · exact b1
  · intro p hp
    obtain ⟨a, b⟩ := b2 p hp
    rw [f1]; simp only [upd]; rw [if_neg b]; exact h.map1 p a
  · intro v q hq hm
    rw [f1] at hq; simp only [upd] at hq
    by_cases e : v = u
    · simp [e] at hq
    · rw [if_neg e] at hq
      have x := h.map2 _ _ hq hm
      rw [f3]; split
      · exact x
      · exact (mem_erase_other _ _ _ _ _ e).mpr x
  · intro v q hq
    rw [f1] at hq; simp only [upd] at hq
    by_cases e : v = u
    · simp [e] at hq
    · rw [if_neg e] at hq; exact h.early _ _ hq

/-- No descriptor has the number 0. -/
def NoZero : Step → Prop
  | .alloc _ _ _ _ fd _ => fd ≠ 0
  | _ => True

theorem held_step {c : Cfg} {k k' : Kern} (h : Held k) (s : Step) (hz : NoZero s)
    (e : step c k s = .ok k') : Held k' := by
  cases s with
  | alloc u name create len fd ok =>
    simp only [step, Except.ok.injEq] at e
    subst e
    unfold doAlloc
    cases hu : k.objs u with
    | some o => exact h
    | none =>
      cases ok with
      | false => exact h
      | true =>
        cases hn : k.names name with
        | some i => exact h.new u { phase := .alloced, create := create, len := len, name := name, fd := fd, ino := i, existed := true, hdr := ⟨c.hdr, 0, 0⟩ } hu hz rfl _ rfl rfl rfl
        | none =>
          cases create with
          | false => exact h
          | true => exact h.new u { phase := .alloced, create := true, len := len, name := name, fd := fd, ino := k.next, existed := false, hdr := ⟨c.hdr, 0, 0⟩ } hu hz rfl _ rfl rfl rfl
  | size u ok =>
    simp only [step] at e
    cases ho : k.objs u with
    | none => rw [ho] at e; simp only [Except.ok.injEq] at e; subst e; exact h
    | some o =>
      rw [ho] at e
      simp only [] at e
      by_cases hph : o.phase = .alloced
      · rw [if_pos hph] at e
        simp only [Except.ok.injEq] at e
        subst e
        have em := h.early _ _ ho (Or.inl hph)
        unfold doSize
        rw [if_neg (h.fd2 _ _ ho).2]
        have := h.setObj u o { o with phase := .sized, size := atLeastPage c (wanted c o) } ho rfl (by simp)
          (by simp [em]) (by intro _; exact em)
        simp only []
        split
        · exact this.same rfl rfl rfl
        · exact this
      · rw [if_neg hph] at e; simp only [Except.ok.injEq] at e; subst e; exact h
  | map u ok =>
    simp only [step] at e
    cases ho : k.objs u with
    | none => rw [ho] at e; simp only [Except.ok.injEq] at e; subst e; exact h
    | some o =>
      rw [ho] at e
      simp only [] at e
      by_cases hph : o.phase = .sized
      · rw [if_pos hph] at e
        simp only [Except.ok.injEq] at e
        subst e
        have em := h.early _ _ ho (Or.inr hph)
        unfold doMap
        split
        · exact h.setObj u o _ ho rfl Iff.rfl (by simp) (by simp)
        · exact h.remap u o _ ho (by rfl) (by simp) _ rfl rfl (Or.inl ⟨by simp, by simp [em]⟩)
      · rw [if_neg hph] at e; simp only [Except.ok.injEq] at e; subst e; exact h
  | header u mutex lock =>
    simp only [step] at e
    cases ho : k.objs u with
    | none => rw [ho] at e; simp only [Except.ok.injEq] at e; subst e; exact h
    | some o =>
      rw [ho] at e
      simp only [] at e
      by_cases hph : o.phase = .mapped
      · rw [if_pos hph] at e
        unfold doHeader at e
        cases mutex with
        | false =>
          simp only [Bool.not_false, if_true, Except.ok.injEq] at e
          subst e
          exact h.setObj u o _ ho rfl Iff.rfl (by simp) (by simp)
        | true =>
          simp only [Bool.not_true, Bool.false_eq_true, if_false] at e
          have key : ∀ hd, Held (setObj k u { o with phase := .ready, hdr := hd }) := fun hd =>
            h.setObj u o _ ho rfl Iff.rfl (by simp) (by simp)
          split at e
          · split at e
            · simp only [Except.ok.injEq] at e; subst e; exact key _
            · split at e
              · simp at e
              · split at e
                · split at e
                  · simp at e
                  · simp only [Except.ok.injEq] at e; subst e; exact (key _).same rfl rfl rfl
                · simp only [Except.ok.injEq] at e; subst e; exact key _
          · split at e
            · simp only [Except.ok.injEq] at e; subst e; exact key _
            · split at e
              · simp at e
              · split at e
                · simp at e
                · simp only [Except.ok.injEq] at e; subst e; exact key _
      · rw [if_neg hph] at e; simp only [Except.ok.injEq] at e; subst e; exact h
  | access u w ok =>
    simp only [step] at e
    cases ho : k.objs u with
    | none => rw [ho] at e; simp only [Except.ok.injEq] at e; subst e; exact h
    | some o =>
      rw [ho] at e
      simp only [] at e
      unfold doAccess at e
      by_cases hq : o.phase ≠ .ready ∨ o.map = none
      · rw [if_pos hq] at e; simp only [Except.ok.injEq] at e; subst e; exact h
      · rw [if_neg hq] at e
        have hph : o.phase = .ready := Classical.byContradiction fun x => hq (Or.inl x)
        have hmn : o.map ≠ none := fun x => hq (Or.inr x)
        split at e
        · simp at e
        · simp only [] at e
          split at e
          · simp only [Except.ok.injEq] at e; subst e
            exact h.setObj u o _ ho rfl Iff.rfl (by simp) (by simp [hph])
          · split at e
            · simp only [Except.ok.injEq] at e; subst e
              exact h.remap u o _ ho (by rfl) (by simp [hph]) _ rfl rfl (Or.inl ⟨by simp, by simp [hmn, setObj]⟩)
            · simp only [Except.ok.injEq] at e; subst e
              exact h.remap u o _ ho (by rfl) (by simp [hph]) _ rfl rfl (Or.inr ⟨by rfl, by simp [hmn, setObj]⟩)
  | read u n =>
    simp only [step] at e
    cases ho : k.objs u with
    | none => rw [ho] at e; simp only [Except.ok.injEq] at e; subst e; exact h.same rfl rfl rfl
    | some o =>
      rw [ho] at e
      simp only [] at e
      unfold doRead at e
      split at e
      · simp only [Except.ok.injEq] at e; subst e; exact h.same rfl rfl rfl
      · split at e
        · simp at e
        · simp only [Except.ok.injEq] at e; subst e; exact h.same rfl rfl rfl
  | write u n =>
    simp only [step] at e
    cases ho : k.objs u with
    | none => rw [ho] at e; simp only [Except.ok.injEq] at e; subst e; exact h.same rfl rfl rfl
    | some o =>
      rw [ho] at e
      simp only [] at e
      unfold doWrite at e
      split at e
      · simp only [Except.ok.injEq] at e; subst e; exact h.same rfl rfl rfl
      · rename_i hq
        split at e
        · simp at e
        · split at e
          · simp at e
          · simp only [Except.ok.injEq] at e; subst e
            have hph : o.phase = .ready := Classical.byContradiction fun x => hq (Or.inl x)
            have := h.setObj u o { o with hdr := { o.hdr with cur := n } } ho rfl Iff.rfl (by simp) (by simp [hph])
            exact this.same rfl rfl rfl
  | release u =>
    simp only [step] at e
    cases ho : k.objs u with
    | none => rw [ho] at e; simp only [Except.ok.injEq] at e; subst e; exact h
    | some o =>
      rw [ho] at e; simp only [Except.ok.injEq] at e; subst e
      exact h.setObj u o _ ho rfl Iff.rfl (by simp) (fun x => h.early u o ho x)
  | destroy u r =>
    simp only [step] at e
    cases ho : k.objs u with
    | none => rw [ho] at e; simp only [Except.ok.injEq] at e; subst e; exact h
    | some o =>
      rw [ho] at e; simp only [Except.ok.injEq] at e; subst e
      unfold doDestroy
      split
      · exact h
      · refine h.gone u o ho _ rfl ?_ ?_
        · exact if_neg (h.fd2 _ _ ho).2
        · show (match o.map with | none => k.maps | some _ => k.maps.erase (u, o.size)) = _
          cases o.map <;> simp

theorem held_run {c : Cfg} (steps : List Step) : ∀ {k k' : Kern}, Held k → (∀ s ∈ steps, NoZero s) →
    run c k steps = .ok k' → Held k' := by
  induction steps with
  | nil => intro k k' h _ e; simp only [run, Except.ok.injEq] at e; subst e; exact h
  | cons s ss ih =>
    intro k k' h hz e
    simp only [run] at e
    cases es : step c k s with
    | error x => rw [es] at e; simp at e
    | ok k1 =>
      rw [es] at e
      exact ih (held_step h s (hz s List.mem_cons_self) es) (fun t ht => hz t (List.mem_cons_of_mem _ ht)) e

theorem held_init : Held {} := by constructor <;> simp

/-- C115: at every moment of every run each user of a segment holds exactly one descriptor and at most
one mapping, and who has left (or never came) holds nothing, whatever the lengths and however often
mapping, resizing or opening failed.  (Missing: descriptor 0, `C115_violated_descriptor_zero`.) -/
theorem C115_given_back_partial (c : Cfg) (steps : List Step) (hz : ∀ s ∈ steps, NoZero s) (k : Kern)
    (hr : run c {} steps = .ok k) (u : Nat) :
    (k.objs u = none → (k.fds.filter (fun p => p.1 == u)) = [] ∧ (k.maps.filter (fun p => p.1 == u)) = []) ∧
    (∀ o, k.objs u = some o → (k.fds.filter (fun p => p.1 == u)) = [(u, o.fd)] ∧
      (k.maps.filter (fun p => p.1 == u)) = if o.map = none then [] else [(u, o.size)]) := by
  have h := held_run steps held_init hz hr
  have one : ∀ (l : List (Nat × Nat)) (x : Nat), (l.map Prod.fst).Nodup → (u, x) ∈ l →
      l.filter (fun p => p.1 == u) = [(u, x)] := by
    intro l x hn hm
    induction l with
    | nil => simp at hm
    | cons a l ih =>
      simp only [List.map_cons, List.nodup_cons] at hn
      rcases List.mem_cons.mp hm with hm | hm
      · subst hm
        have : l.filter (fun p => p.1 == u) = [] := by
          rw [List.filter_eq_nil_iff]
          intro p hp e
          exact hn.1 (List.mem_map.mpr ⟨p, hp, by simpa using e⟩)
        simp [this]
      · have hne : a.1 ≠ u := by
          intro e
          exact hn.1 (List.mem_map.mpr ⟨_, hm, e.symm⟩)
        simp [hne, ih hn.2 hm]
  have zero : ∀ (l : List (Nat × Nat)), (∀ p ∈ l, p.1 ≠ u) → l.filter (fun p => p.1 == u) = [] := by
    intro l hl
    rw [List.filter_eq_nil_iff]
    intro p hp e
    exact hl p hp (by simpa using e)
  constructor
  · intro hu
    refine ⟨zero _ ?_, zero _ ?_⟩
    · intro p hp e
      obtain ⟨q, hq, _⟩ := h.fd1 p hp
      rw [e, hu] at hq; simp at hq
    · intro p hp e
      obtain ⟨q, hq, _⟩ := h.map1 p hp
      rw [e, hu] at hq; simp at hq
  · intro o ho
    refine ⟨one _ _ h.fdN (h.fd2 _ _ ho).1, ?_⟩
    by_cases hm : o.map = none
    · rw [if_pos hm]
      apply zero
      intro p hp e
      obtain ⟨q, hq, hq2, _⟩ := h.map1 p hp
      rw [e, ho] at hq; cases hq; exact hq2 hm
    · rw [if_neg hm]; exact one _ _ h.mapN (h.map2 _ _ ho hm)

/-- The hypotheses of `C115_given_back_partial` are met by `demo`, which ends with nothing held. -/
example : (∀ s ∈ demo, NoZero s) ∧
    heldOf (run linux {} demo) = some ([], []) := by
  refine ⟨?_, by decide +kernel⟩
  intro s hs
  simp only [demo, List.mem_cons, List.not_mem_nil, or_false] at hs
  rcases hs with h | h | h | h | h | h | h | h | h | h | h | h | h | h | h | h | h | h | h | h | h | h | h | h | h | h | h | h <;>
    subst h <;> first | trivial | (show _ ≠ 0; decide)

/-! ## Where the code crashes or loses what it holds -/

/-- Process 0 creates a segment, then process 1 creates it with another length. -/
def twoCreators (n L1 L2 : Nat) : List Step :=
  [.alloc 0 n true L1 3 true, .size 0 true, .map 0 true, .header 0 true true,
   .alloc 1 n true L2 3 true, .size 1 true, .map 1 true, .header 1 true true]

/-- Violation: a process that asks for less than the first creator did is killed by its first write
(its mapping is replaced by a read-only one), whatever the lengths if the difference is large enough to
need another mapping.  This happens with the registration over shared memory if `queue_size` is
configured smaller in a second process (`/repo/ecal/core/src/registration/shm/ecal_memfile_broadcast.cpp`
L72-99): `CMemoryFileBroadcast::Create` accepts the larger existing file (L83) and writes (L99). -/
theorem C115_violated_smaller_queue (c : Cfg) (hc : Sane c) (n L1 L2 m : Nat) (hm : 0 < m) (hm1 : m ≤ L1)
    (h : fileSize c L2 < L1 + c.hdr) :
    crashOf (run c {} (twoCreators n L1 L2 ++ [.access 1 true true, .write 1 m])) = some .segv := by
  have hx := hc
  unfold Sane at hx
  have p1 := page_le_fileSize c L1
  have p2 := page_le_fileSize c L2
  have q1 := le_pages c hc (fileSize c L1)
  have q2 := le_pages c hc (fileSize c L2)
  have e0 : ¬ (pages c (fileSize c L1) < c.hdr) := by omega
  have e1 : ¬ (pages c (fileSize c L2) < c.hdr) := by omega
  have e2 : ¬ (c.hdr = 0) := by omega
  have e3 : ¬ (c.hdr + L1 ≤ fileSize c L2) := by omega
  have e4 : ¬ (m = 0) := by omega
  have e5 : ¬ (L1 < m) := by omega
  have f1 : atLeastPage c (L1 + c.hdr) = fileSize c L1 := rfl
  have f2 : atLeastPage c (L2 + c.hdr) = fileSize c L2 := rfl
  simp [twoCreators, run, step, doAlloc, doSize, doMap, doHeader, doAccess, doWrite, touch, setObj, setInode,
    upd, wanted, copyHdr, crashOf, e0, e1, e2, e3, e4, e5, f1, f2]

/-- The lengths of the broadcast segment for queues of 1024 (the default) and 100 events of 24 bytes:
24 bytes of header and 32 bytes of the queue come in addition. -/
example : fileSize linux (24 + 32 + 24 * 100) < (24 + 32 + 24 * 1024) + linux.hdr := by decide

/-- Violation: and the first creator is killed, too, when it uses the part of its segment that the
second one cut off. -/
theorem C115_violated_cut_off (c : Cfg) (hc : Sane c) (n L1 L2 m : Nat) (hm1 : m ≤ L1) (hm : 0 < m)
    (h : pages c (fileSize c L2) < c.hdr + m) :
    crashOf (run c {} (twoCreators n L1 L2 ++ [.access 0 true true, .write 0 m])) = some .sigbus := by
  have hx := hc
  unfold Sane at hx
  have l1 := len_le_fileSize c L1
  have p1 := page_le_fileSize c L1
  have p2 := page_le_fileSize c L2
  have q1 := le_pages c hc (fileSize c L1)
  have q2 := le_pages c hc (fileSize c L2)
  have e0 : ¬ (pages c (fileSize c L1) < c.hdr) := by omega
  have e1 : ¬ (pages c (fileSize c L2) < c.hdr) := by omega
  have e2 : ¬ (c.hdr = 0) := by omega
  have e3 : c.hdr + L1 ≤ fileSize c L1 := by omega
  have e4 : ¬ (m = 0) := by omega
  have e5 : ¬ (L1 < m) := by omega
  have e6 : ¬ (pages c (fileSize c L1) < c.hdr + m) := by omega
  have f1 : atLeastPage c (L1 + c.hdr) = fileSize c L1 := rfl
  have f2 : atLeastPage c (L2 + c.hdr) = fileSize c L2 := rfl
  simp [twoCreators, run, step, doAlloc, doSize, doMap, doHeader, doAccess, doWrite, touch, setObj, setInode,
    upd, wanted, copyHdr, crashOf, e0, e1, e2, e3, e4, e5, e6, f1, f2, h]

example : pages linux (fileSize linux 2456) < linux.hdr + 24632 := by decide

/-- Violation: opening a segment between `shm_open` and `ftruncate` of its creator kills the process. -/
theorem C115_violated_opened_too_early :
    crashOf (run linux {} [.alloc 0 1 true 100 3 true, .alloc 1 1 false 0 3 true, .size 1 true, .map 1 true,
      .header 1 true true]) = some .sigbus := by decide +kernel

/-- Violation: a process that cannot map a segment it opens is killed instead of being told. -/
theorem C115_violated_mmap_fails :
    crashOf (run linux {} [.alloc 0 1 true 100 3 true, .size 0 true, .map 0 true, .header 0 true true,
      .alloc 1 1 false 0 3 true, .size 1 true, .map 1 false, .header 1 true true]) = some .segv := by
  decide +kernel

/-- Violation: a creator whose `ftruncate` fails is killed, too. -/
theorem C115_violated_ftruncate_fails :
    crashOf (run linux {} [.alloc 0 1 true 100 3 true, .size 0 false, .map 0 true, .header 0 true true])
      = some .sigbus := by decide +kernel

/-- Violation: descriptor 0 is valid (standard input was closed), but counts as "no file": who opens a
segment with it is killed; who creates one can never write, and the descriptor is never closed. -/
theorem C115_violated_descriptor_zero :
    crashOf (run linux {} [.alloc 0 1 true 100 3 true, .size 0 true, .map 0 true, .header 0 true true,
      .alloc 1 1 false 0 0 true, .size 1 true, .map 1 true, .header 1 true true]) = some .segv ∧
    logOf (run linux {} [.alloc 0 1 true 100 0 true, .size 0 true, .map 0 true, .header 0 true true,
      .access 0 true true, .write 0 10]) = some [(0, 0)] ∧
    heldOf (run linux {} [.alloc 0 1 true 100 0 true, .size 0 true, .map 0 true, .header 0 true true,
      .access 0 true true, .write 0 10, .destroy 0 true]) = some ([(0, 0)], []) := by
  refine ⟨?_, ?_, ?_⟩ <;> decide +kernel

/-- Violation: two processes create a segment at the same time; the second is faster, a sample it has
written and another process has read is gone when the first one finishes its creation. -/
theorem C115_violated_late_reset :
    logOf (run linux {} [.alloc 0 1 true 100 3 true, .alloc 1 1 true 100 3 true, .size 1 true, .map 1 true,
      .header 1 true true, .access 1 true true, .write 1 10, .release 1,
      .alloc 2 1 false 0 3 true, .size 2 true, .map 2 true, .header 2 true true,
      .access 2 false true, .read 2 10, .release 2,
      .size 0 true, .map 0 true, .header 0 true true,
      .access 2 false true, .read 2 10]) = some [(1, 10), (2, 10), (2, 0)] := by decide +kernel

/-- The user `u` has copied an empty header. -/
def Stuck (k : Kern) (u : Nat) : Prop := ∀ o, k.objs u = some o → o.phase = .ready ∧ o.hdr = ⟨0, 0, 0⟩

/-- A step of another user, or one of `u` that does not destroy. -/
def Keeps (u : Nat) : Step → Prop
  | .destroy v _ => v ≠ u
  | .alloc v _ _ _ _ _ => v ≠ u
  | _ => True

theorem upd_ne {α : Type} (f : Nat → α) (k x : Nat) (v : α) (h : x ≠ k) : upd f k v x = f x := if_neg h

theorem stuck_set {k : Kern} {u v : Nat} (h : Stuck k u) (o o' : Obj) (ho : k.objs v = some o)
    (hv : v = u → o'.phase = o.phase ∧ o'.hdr = o.hdr) : Stuck (setObj k v o') u := by
  intro p hp
  by_cases e : v = u
  · subst e
    have : setObj k v o' = { k with objs := upd k.objs v (some o') } := rfl
    rw [this] at hp
    simp only [upd, if_true, Option.some.injEq] at hp
    subst hp
    obtain ⟨a, b⟩ := hv rfl
    rw [a, b]; exact h o ho
  · have : (setObj k v o').objs u = k.objs u := upd_ne _ _ _ _ (Ne.symm e)
    rw [this] at hp; exact h p hp

theorem stuck_step {c : Cfg} {k k' : Kern} {u : Nat} (h : Stuck k u) (s : Step) (hs : Keeps u s)
    (e : step c k s = .ok k') : Stuck k' u ∧ ∃ l, k'.log = k.log ++ l ∧ ∀ p ∈ l, p.1 = u → p.2 = 0 := by
  have nolog : ∀ {q : Kern}, q.log = k.log → ∃ l, q.log = k.log ++ l ∧ ∀ p ∈ l, p.1 = u → p.2 = 0 :=
    fun hq => ⟨[], by simp [hq], by simp⟩
  cases s with
  | alloc v name create len fd ok =>
    have hv : v ≠ u := hs
    simp only [step, Except.ok.injEq] at e
    subst e
    unfold doAlloc
    split
    · exact ⟨h, nolog rfl⟩
    · split
      · exact ⟨h, nolog rfl⟩
      · split
        · refine ⟨?_, nolog rfl⟩
          intro p hp
          exact h p ((upd_ne k.objs v u _ (Ne.symm hv)).symm.trans hp)
        · split
          · refine ⟨?_, nolog rfl⟩
            intro p hp
            exact h p ((upd_ne k.objs v u _ (Ne.symm hv)).symm.trans hp)
          · exact ⟨h, nolog rfl⟩
  | size v ok =>
    simp only [step] at e
    cases ho : k.objs v with
    | none => rw [ho] at e; simp only [Except.ok.injEq] at e; subst e; exact ⟨h, nolog rfl⟩
    | some o =>
      rw [ho] at e
      simp only [] at e
      by_cases hph : o.phase = .alloced
      · rw [if_pos hph] at e
        simp only [Except.ok.injEq] at e
        subst e
        have hv : v = u → False := by
          intro x; subst x; have := (h o ho).1; rw [hph] at this; simp at this
        unfold doSize
        split
        · exact ⟨stuck_set h o _ ho (fun x => (hv x).elim), nolog rfl⟩
        · simp only []
          split
          · refine ⟨?_, nolog rfl⟩
            have := stuck_set h o { o with phase := .sized, size := atLeastPage c (wanted c o) } ho (fun x => (hv x).elim)
            exact this
          · exact ⟨stuck_set h o _ ho (fun x => (hv x).elim), nolog rfl⟩
      · rw [if_neg hph] at e; simp only [Except.ok.injEq] at e; subst e; exact ⟨h, nolog rfl⟩
  | map v ok =>
    simp only [step] at e
    cases ho : k.objs v with
    | none => rw [ho] at e; simp only [Except.ok.injEq] at e; subst e; exact ⟨h, nolog rfl⟩
    | some o =>
      rw [ho] at e
      simp only [] at e
      by_cases hph : o.phase = .sized
      · rw [if_pos hph] at e
        simp only [Except.ok.injEq] at e
        subst e
        have hv : v = u → False := by
          intro x; subst x; have := (h o ho).1; rw [hph] at this; simp at this
        unfold doMap
        split
        · exact ⟨stuck_set h o _ ho (fun x => (hv x).elim), nolog rfl⟩
        · refine ⟨?_, nolog rfl⟩
          have := stuck_set h o { o with phase := .mapped, map := some ⟨o.size, o.create⟩ } ho (fun x => (hv x).elim)
          exact this
      · rw [if_neg hph] at e; simp only [Except.ok.injEq] at e; subst e; exact ⟨h, nolog rfl⟩
  | header v mutex lock =>
    simp only [step] at e
    cases ho : k.objs v with
    | none => rw [ho] at e; simp only [Except.ok.injEq] at e; subst e; exact ⟨h, nolog rfl⟩
    | some o =>
      rw [ho] at e
      simp only [] at e
      by_cases hph : o.phase = .mapped
      · rw [if_pos hph] at e
        have hv : v = u → False := by
          intro x; subst x; have := (h o ho).1; rw [hph] at this; simp at this
        have key : ∀ o', Stuck (setObj k v o') u := fun o' => stuck_set h o o' ho (fun x => (hv x).elim)
        unfold doHeader at e
        split at e
        · simp only [Except.ok.injEq] at e; subst e; exact ⟨key _, nolog rfl⟩
        · split at e
          · simp only [] at e
            split at e
            · simp only [Except.ok.injEq] at e; subst e; exact ⟨key _, nolog rfl⟩
            · split at e
              · simp at e
              · split at e
                · split at e
                  · simp at e
                  · simp only [Except.ok.injEq] at e; subst e; exact ⟨fun p hp => key _ p hp, nolog rfl⟩
                · simp only [Except.ok.injEq] at e; subst e; exact ⟨key _, nolog rfl⟩
          · simp only [] at e
            split at e
            · simp only [Except.ok.injEq] at e; subst e; exact ⟨key _, nolog rfl⟩
            · split at e
              · simp at e
              · split at e
                · simp at e
                · simp only [Except.ok.injEq] at e; subst e; exact ⟨key _, nolog rfl⟩
      · rw [if_neg hph] at e; simp only [Except.ok.injEq] at e; subst e; exact ⟨h, nolog rfl⟩
  | access v w ok =>
    simp only [step] at e
    cases ho : k.objs v with
    | none => rw [ho] at e; simp only [Except.ok.injEq] at e; subst e; exact ⟨h, nolog rfl⟩
    | some o =>
      rw [ho] at e
      simp only [] at e
      have hh : v = u → copyHdr o.hdr (k.inodes o.ino).hdr o.hdr.hsize = o.hdr := by
        intro x; subst x
        unfold copyHdr
        rw [(h o ho).2]; rfl
      unfold doAccess at e
      split at e
      · simp only [Except.ok.injEq] at e; subst e; exact ⟨h, nolog rfl⟩
      · split at e
        · simp at e
        · simp only [] at e
          split at e
          · simp only [Except.ok.injEq] at e; subst e
            exact ⟨stuck_set h o _ ho (fun x => ⟨rfl, hh x⟩), nolog rfl⟩
          · split at e
            · simp only [Except.ok.injEq] at e; subst e
              refine ⟨?_, nolog rfl⟩
              have := stuck_set h o { o with hdr := copyHdr o.hdr (k.inodes o.ino).hdr o.hdr.hsize, acc := some w, size := atLeastPage c ((copyHdr o.hdr (k.inodes o.ino).hdr o.hdr.hsize).hsize + (copyHdr o.hdr (k.inodes o.ino).hdr o.hdr.hsize).max), map := some ⟨atLeastPage c ((copyHdr o.hdr (k.inodes o.ino).hdr o.hdr.hsize).hsize + (copyHdr o.hdr (k.inodes o.ino).hdr o.hdr.hsize).max), false⟩ } ho (fun x => ⟨rfl, hh x⟩)
              exact this
            · simp only [Except.ok.injEq] at e; subst e
              refine ⟨?_, nolog rfl⟩
              have := stuck_set h o { o with hdr := copyHdr o.hdr (k.inodes o.ino).hdr o.hdr.hsize, acc := some w, size := atLeastPage c ((copyHdr o.hdr (k.inodes o.ino).hdr o.hdr.hsize).hsize + (copyHdr o.hdr (k.inodes o.ino).hdr o.hdr.hsize).max), map := none } ho (fun x => ⟨rfl, hh x⟩)
              exact this
  | read v n =>
    simp only [step] at e
    have zero : ∃ l, (result k v 0).log = k.log ++ l ∧ ∀ p ∈ l, p.1 = u → p.2 = 0 :=
      ⟨[(v, 0)], rfl, by simp⟩
    cases ho : k.objs v with
    | none => rw [ho] at e; simp only [Except.ok.injEq] at e; subst e; exact ⟨h, zero⟩
    | some o =>
      rw [ho] at e
      simp only [] at e
      unfold doRead at e
      split at e
      · simp only [Except.ok.injEq] at e; subst e; exact ⟨h, zero⟩
      · rename_i hq
        split at e
        · simp at e
        · simp only [Except.ok.injEq] at e; subst e
          refine ⟨h, [(v, n)], rfl, ?_⟩
          intro p hp hpu
          simp only [List.mem_singleton] at hp
          subst hp
          simp only [] at hpu
          subst hpu
          have := (h o ho).2
          rw [this] at hq
          simp only [not_or] at hq
          show n = 0
          omega
  | write v n =>
    simp only [step] at e
    have zero : ∃ l, (result k v 0).log = k.log ++ l ∧ ∀ p ∈ l, p.1 = u → p.2 = 0 :=
      ⟨[(v, 0)], rfl, by simp⟩
    cases ho : k.objs v with
    | none => rw [ho] at e; simp only [Except.ok.injEq] at e; subst e; exact ⟨h, zero⟩
    | some o =>
      rw [ho] at e
      simp only [] at e
      unfold doWrite at e
      split at e
      · simp only [Except.ok.injEq] at e; subst e; exact ⟨h, zero⟩
      · rename_i hq
        have hv : v = u → False := by
          intro x; subst x
          have := (h o ho).2
          rw [this] at hq
          simp only [not_or] at hq
          omega
        split at e
        · simp at e
        · split at e
          · simp at e
          · simp only [Except.ok.injEq] at e; subst e
            have := stuck_set h o { o with hdr := { o.hdr with cur := n } } ho (fun x => (hv x).elim)
            refine ⟨this, [(v, n)], rfl, ?_⟩
            intro p hp hpu
            simp only [List.mem_singleton] at hp
            subst hp
            exact (hv hpu).elim
  | release v =>
    simp only [step] at e
    cases ho : k.objs v with
    | none => rw [ho] at e; simp only [Except.ok.injEq] at e; subst e; exact ⟨h, nolog rfl⟩
    | some o =>
      rw [ho] at e; simp only [Except.ok.injEq] at e; subst e
      exact ⟨stuck_set h o _ ho (fun _ => ⟨rfl, rfl⟩), nolog rfl⟩
  | destroy v r =>
    have hv : v ≠ u := hs
    simp only [step] at e
    cases ho : k.objs v with
    | none => rw [ho] at e; simp only [Except.ok.injEq] at e; subst e; exact ⟨h, nolog rfl⟩
    | some o =>
      rw [ho] at e; simp only [Except.ok.injEq] at e; subst e
      unfold doDestroy
      split
      · exact ⟨h, nolog rfl⟩
      · refine ⟨?_, nolog rfl⟩
        intro p hp
        exact h p ((upd_ne k.objs v u _ (Ne.symm hv)).symm.trans hp)

theorem run_append (c : Cfg) (a b : List Step) (k0 : Kern) : run c k0 (a ++ b) =
    (match run c k0 a with | .ok k1 => run c k1 b | .error e => .error e) := by
  induction a generalizing k0 with
  | nil => rfl
  | cons s ss ih =>
    simp only [List.cons_append, run]
    cases step c k0 s with
    | error e => rfl
    | ok k1 => exact ih k1

/-- The process 1 opens the segment and looks at it after `ftruncate`, but before its creator has
written the header. -/
def tooEarly : List Step :=
  [.alloc 0 1 true 100 3 true, .size 0 true, .map 0 true, .alloc 1 1 false 0 3 true, .size 1 true,
   .map 1 true, .header 1 true true, .access 1 false true, .release 1]

/-- Violation: a reader that looks at a segment before the header is written never reads anything from
it, whatever is written later and however often it tries: it has copied a header size of 0 and from then
on copies 0 bytes of the header (`ecal_memfile.cpp` L379). -/
theorem C115_violated_stuck_reader (steps : List Step) (hs : ∀ s ∈ steps, Keeps 1 s) (k : Kern)
    (hr : run linux {} (tooEarly ++ steps) = .ok k) : ∀ p ∈ k.log, p.1 = 1 → p.2 = 0 := by
  rw [run_append] at hr
  have hfirst : ∃ k1, run linux {} tooEarly = .ok k1 ∧ Stuck k1 1 ∧ k1.log = [] := by
    refine ⟨_, rfl, ?_, by decide +kernel⟩
    intro o ho
    have : (some o : Option Obj).map (fun o => (o.phase, o.hdr)) = some (.ready, ⟨0, 0, 0⟩) := by
      rw [← ho]; decide +kernel
    simp only [Option.map_some, Option.some.injEq, Prod.mk.injEq] at this
    exact this
  obtain ⟨k1, e1, s1, l1⟩ := hfirst
  rw [e1] at hr
  simp only [] at hr
  have main : ∀ (steps : List Step) (k0 k' : Kern), Stuck k0 1 → (∀ s ∈ steps, Keeps 1 s) →
      (∀ p ∈ k0.log, p.1 = 1 → p.2 = 0) → run linux k0 steps = .ok k' → ∀ p ∈ k'.log, p.1 = 1 → p.2 = 0 := by
    intro steps
    induction steps with
    | nil => intro k0 k' _ _ hl e; simp only [run, Except.ok.injEq] at e; subst e; exact hl
    | cons s ss ih =>
      intro k0 k' hst hk hl e
      simp only [run] at e
      cases es : step linux k0 s with
      | error x => rw [es] at e; simp at e
      | ok k2 =>
        rw [es] at e
        obtain ⟨a, l, b, d⟩ := stuck_step hst s (hk s List.mem_cons_self) es
        refine ih k2 k' a (fun t ht => hk t (List.mem_cons_of_mem _ ht)) ?_ e
        intro p hp
        rw [b] at hp
        rcases List.mem_append.mp hp with hp | hp
        · exact hl p hp
        · exact d p hp
  exact main steps k1 k s1 hs (by simp [l1]) hr

/-- Such a continuation: the creator finishes and writes ten bytes, the reader tries to read them. -/
example : logOf (run linux {} (tooEarly ++ [.header 0 true true, .access 0 true true, .write 0 10, .release 0,
    .access 1 false true, .read 1 10])) = some [(0, 10), (1, 0)] := by decide +kernel

/-- Violation: if the mutex of a segment cannot be created, `Create` reports failure but keeps the
descriptor and the mapping, and `Destroy` does not give them back: nothing the process does with the
object ends this. -/
theorem C115_violated_mutex_fails (steps : List Step) (k : Kern)
    (hr : run linux {} ([.alloc 0 1 true 100 3 true, .size 0 true, .map 0 true, .header 0 false true] ++ steps) = .ok k)
    (hz : ∀ s ∈ steps, NoZero s) : (0, 3) ∈ k.fds ∧ (0, 4096) ∈ k.maps := by
  have fstep : ∀ (k0 k' : Kern) (s : Step) (o : Obj), k0.objs 0 = some o → o.phase = .failed →
      step linux k0 s = .ok k' → k'.objs 0 = some o ∨ (∃ o', k'.objs 0 = some o' ∧ o'.phase = .failed ∧
        o'.fd = o.fd ∧ o'.size = o.size ∧ o'.map = o.map) := by
    intro k0 k' s o ho hph e
    have other : ∀ (v : Nat) (p : Option Obj), v ≠ 0 → upd k0.objs v p 0 = some o := by
      intro v p hv; rw [upd_ne _ _ _ _ (Ne.symm hv)]; exact ho
    cases s with
    | alloc v name create len fd ok =>
      simp only [step, Except.ok.injEq] at e; subst e
      left
      unfold doAlloc
      by_cases hv : v = 0
      · subst hv; rw [ho]; exact ho
      · repeat' split
        all_goals first | exact ho | exact other _ _ hv
    | size v ok =>
      left
      simp only [step] at e
      by_cases hv : v = 0
      · subst hv; rw [ho] at e; simp [hph] at e; subst e; exact ho
      · split at e
        · simp only [Except.ok.injEq] at e; subst e; exact ho
        · split at e
          · simp only [Except.ok.injEq] at e; subst e
            unfold doSize
            simp only []
            repeat' split
            all_goals exact other _ _ hv
          · simp only [Except.ok.injEq] at e; subst e; exact ho
    | map v ok =>
      left
      simp only [step] at e
      by_cases hv : v = 0
      · subst hv; rw [ho] at e; simp [hph] at e; subst e; exact ho
      · split at e
        · simp only [Except.ok.injEq] at e; subst e; exact ho
        · split at e
          · simp only [Except.ok.injEq] at e; subst e
            unfold doMap
            split
            all_goals exact other _ _ hv
          · simp only [Except.ok.injEq] at e; subst e; exact ho
    | header v mutex lock =>
      left
      simp only [step] at e
      by_cases hv : v = 0
      · subst hv; rw [ho] at e; simp [hph] at e; subst e; exact ho
      · split at e
        · simp only [Except.ok.injEq] at e; subst e; exact ho
        · split at e
          · unfold doHeader at e
            simp only [] at e
            repeat' split at e
            all_goals first
              | (simp at e; done)
              | (simp only [Except.ok.injEq] at e; subst e; exact other _ _ hv)
          · simp only [Except.ok.injEq] at e; subst e; exact ho
    | access v w ok =>
      left
      simp only [step] at e
      by_cases hv : v = 0
      · subst hv; rw [ho] at e; simp only [] at e
        unfold doAccess at e
        rw [if_pos (Or.inl (by simp [hph]))] at e
        simp only [Except.ok.injEq] at e; subst e; exact ho
      · split at e
        · simp only [Except.ok.injEq] at e; subst e; exact ho
        · unfold doAccess at e
          simp only [] at e
          repeat' split at e
          all_goals first
            | (simp at e; done)
            | (simp only [Except.ok.injEq] at e; subst e; first | exact ho | exact other _ _ hv)
    | read v n =>
      left
      simp only [step] at e
      split at e
      · simp only [Except.ok.injEq] at e; subst e; exact ho
      · unfold doRead at e
        repeat' split at e
        all_goals first
          | (simp at e; done)
          | (simp only [Except.ok.injEq] at e; subst e; exact ho)
    | write v n =>
      left
      simp only [step] at e
      by_cases hv : v = 0
      · subst hv; rw [ho] at e; simp only [] at e
        unfold doWrite at e
        rw [if_pos (Or.inl (by simp [hph]))] at e
        simp only [Except.ok.injEq] at e; subst e; exact ho
      · split at e
        · simp only [Except.ok.injEq] at e; subst e; exact ho
        · unfold doWrite at e
          simp only [] at e
          repeat' split at e
          all_goals first
            | (simp at e; done)
            | (simp only [Except.ok.injEq] at e; subst e; first | exact ho | exact other _ _ hv)
    | release v =>
      simp only [step] at e
      by_cases hv : v = 0
      · subst hv; rw [ho] at e; simp only [Except.ok.injEq] at e; subst e
        right; exact ⟨{ o with acc := none }, by simp [setObj, upd], hph, rfl, rfl, rfl⟩
      · left
        split at e
        · simp only [Except.ok.injEq] at e; subst e; exact ho
        · simp only [Except.ok.injEq] at e; subst e; exact other _ _ hv
    | destroy v r =>
      left
      simp only [step] at e
      by_cases hv : v = 0
      · subst hv; rw [ho] at e; simp only [] at e
        unfold doDestroy at e
        rw [if_pos (by simp [hph])] at e
        simp only [Except.ok.injEq] at e; subst e; exact ho
      · split at e
        · simp only [Except.ok.injEq] at e; subst e; exact ho
        · unfold doDestroy at e
          split at e
          · simp only [Except.ok.injEq] at e; subst e; exact ho
          · simp only [Except.ok.injEq] at e; subst e; exact other _ _ hv
  have main : ∀ (steps : List Step) (k0 k' : Kern) (o : Obj), Held k0 → (∀ s ∈ steps, NoZero s) →
      k0.objs 0 = some o → o.phase = .failed → o.fd = 3 → o.size = 4096 → o.map ≠ none →
      run linux k0 steps = .ok k' → (0, 3) ∈ k'.fds ∧ (0, 4096) ∈ k'.maps := by
    intro steps
    induction steps with
    | nil =>
      intro k0 k' o h _ ho _ e1 e2 e3 e
      simp only [run, Except.ok.injEq] at e; subst e
      have a := (h.fd2 _ _ ho).1
      have b := h.map2 _ _ ho e3
      rw [e1] at a; rw [e2] at b
      exact ⟨a, b⟩
    | cons s ss ih =>
      intro k0 k' o h hz ho hph e1 e2 e3 e
      simp only [run] at e
      cases es : step linux k0 s with
      | error x => rw [es] at e; simp at e
      | ok k2 =>
        rw [es] at e
        have h2 := held_step h s (hz s List.mem_cons_self) es
        have hz2 := fun t ht => hz t (List.mem_cons_of_mem s ht)
        rcases fstep k0 k2 s o ho hph es with a | ⟨o', a, b, d1, d2, d3⟩
        · exact ih k2 k' o h2 hz2 a hph e1 e2 e3 e
        · exact ih k2 k' o' h2 hz2 a b (by rw [d1, e1]) (by rw [d2, e2]) (by rw [d3]; exact e3) e
  have h4 : ∃ k1 o, run linux {} [.alloc 0 1 true 100 3 true, .size 0 true, .map 0 true, .header 0 false true] = .ok k1 ∧
      k1.objs 0 = some o ∧ o.phase = .failed ∧ o.fd = 3 ∧ o.size = 4096 ∧ o.map ≠ none :=
    ⟨_, _, rfl, rfl, rfl, rfl, by decide +kernel, by decide +kernel⟩
  obtain ⟨k1, o, e1, a1, a2, a3, a4, a5⟩ := h4
  have hh := held_run _ held_init (by
    intro s hs
    simp only [List.mem_cons, List.not_mem_nil, or_false] at hs
    rcases hs with h | h | h | h <;> subst h <;> first | trivial | (show _ ≠ 0; decide)) e1
  have hr2 : run linux k1 steps = .ok k := by
    rw [run_append, e1] at hr
    exact hr
  exact main steps k1 k o hh hz a1 a2 a3 a4 a5 hr2

/-- Such a continuation: the object is destroyed. -/
example : heldOf (run linux {} ([.alloc 0 1 true 100 3 true, .size 0 true, .map 0 true, .header 0 false true] ++
    [.destroy 0 true])) = some ([(0, 3)], [(0, 4096)]) := by decide +kernel

end Ecal.Shm.Posix
