import Verif.Config.Search

/-!
# Properties of the search for the configuration file (C96)
-/

namespace Ecal.Config.Search

/-- The candidates in the documented order: working directory, ECAL_DATA, installation, system, and last the name as
it is. -/
def candidates (cwd : Path) (w : World) (name : Path) : List Path :=
  [cwd ++ name, envPath w ++ name, cmakePath w ++ name, systemPath ++ name, name]

theorem findValid_eq (w : World) (paths : List Path) (name : Path) :
    (findValid w paths name = [] ∧
      ((∀ p ∈ paths, w.isFile (p ++ name) = false) ∨
        ∃ pre post, paths = pre ++ [] :: post ∧ w.isFile name = true ∧ ∀ p ∈ pre, w.isFile (p ++ name) = false)) ∨
    (findValid w paths name ≠ [] ∧ (paths.map (· ++ name)).find? w.isFile = some (findValid w paths name ++ name)) := by
  unfold findValid
  induction paths with
  | nil => simp
  | cons p ps ih =>
    by_cases h : w.isFile (p ++ name) = true
    · simp only [List.find?_cons_of_pos, h, Option.getD_some, List.map_cons]
      by_cases hp : p = []
      · subst hp
        left
        exact ⟨rfl, .inr ⟨[], ps, rfl, by simpa using h, by simp⟩⟩
      · right
        exact ⟨hp, by simp⟩
    · have h' : w.isFile (p ++ name) = false := by simpa using h
      simp only [List.find?_cons, h', List.map_cons]
      rcases ih with ⟨h1, h2⟩ | ⟨h1, h2⟩
      · left
        refine ⟨h1, ?_⟩
        rcases h2 with h2 | ⟨pre, post, hp, hf, hn⟩
        · left; simpa [h'] using h2
        · right
          refine ⟨p :: pre, post, by rw [hp]; rfl, hf, ?_⟩
          intro q hq
          rcases List.mem_cons.1 hq with rfl | hq
          · exact h'
          · exact hn q hq
      · right
        exact ⟨h1, h2⟩

theorem setPathSep_ne_nil {p : Path} (h : p ≠ []) : setPathSep p ≠ [] := by
  unfold setPathSep
  split
  · exact h
  · split
    · simp
    · exact h

/-- A directory prefix ends with a separator, and only with one more than given. -/
theorem setPathSep_spec (p : Path) (h : p ≠ []) : ∃ q, setPathSep p = q ++ ['/'] ∧ (p = q ∨ p = q ++ ['/']) := by
  unfold setPathSep
  split
  · rename_i hl; simp at hl; exact absurd hl h
  · rename_i c hl
    split
    · exact ⟨p, rfl, .inl rfl⟩
    · rename_i hc
      have hc' : c = '/' := by simpa using hc
      subst hc'
      have h1 : p.getLast h = '/' := by rw [List.getLast?_eq_some_getLast h] at hl; exact Option.some.inj hl
      have := List.dropLast_concat_getLast h
      rw [h1] at this
      exact ⟨p.dropLast, this.symm, .inr this.symm⟩

/-- The name is found as the first candidate that is a file — also when ECAL_DATA is not set or nothing was installed,
although these empty prefixes count as "not found" inside. -/
theorem check_first (w : World) (name cwd : Path) (hc : cwdPath w = .ok cwd) :
    check w name = .ok (((candidates cwd w name).find? w.isFile).getD []) := by
  have hsplit : candidates cwd w name = (cwd :: defaultPaths w).map (· ++ name) ++ [name] := rfl
  unfold check
  rw [hc]
  simp only [List.append_nil]
  rcases findValid_eq w (cwd :: defaultPaths w) name with ⟨h1, h2⟩ | ⟨h1, h2⟩
  · rw [if_pos h1, h1, hsplit, List.find?_append]
    rcases h2 with h2 | ⟨pre, post, hp, hf, hn⟩
    · have : ((cwd :: defaultPaths w).map (· ++ name)).find? w.isFile = none := by
        rw [List.find?_eq_none]
        intro x hx
        obtain ⟨p, hp, rfl⟩ := List.mem_map.1 hx
        simp [h2 p hp]
      rw [this]
      by_cases hf : w.isFile name = true
      · simp [hf]
      · simp [hf]
    · have : ((cwd :: defaultPaths w).map (· ++ name)).find? w.isFile = some name := by
        rw [hp, List.map_append, List.find?_append]
        have : (pre.map (· ++ name)).find? w.isFile = none := by
          rw [List.find?_eq_none]
          intro x hx
          obtain ⟨p, hp, rfl⟩ := List.mem_map.1 hx
          simp [hn p hp]
        rw [this]
        simp [hf]
      rw [this, if_pos hf]
      simp
  · rw [if_neg h1, hsplit, List.find?_append, h2]
    simp

/-- The name that is searched for. -/
def wanted (user : Path) : Path := if user = [] then defaultName else user

theorem loaded_eq (w : World) (user cwd : Path) (hc : w.cwd = some cwd) :
    loaded w user = .ok ((candidates (setPathSep cwd) w (wanted user)).find? w.isFile) := by
  have hcp : cwdPath w = .ok (setPathSep cwd) := by simp [cwdPath, hc]
  have hw : (if user ≠ [] then user else defaultName) = wanted user := by
    unfold wanted
    by_cases h : user = [] <;> simp [h]
  unfold loaded
  rw [hw, check_first w _ _ hcp]
  have hwn : wanted user ≠ [] := by
    unfold wanted
    split
    · decide
    · assumption
  simp only
  cases hf : (candidates (setPathSep cwd) w (wanted user)).find? w.isFile with
  | none => simp
  | some p =>
    have hm := List.mem_of_find?_eq_some hf
    have : p ≠ [] := by
      simp only [candidates, List.mem_cons, List.not_mem_nil, or_false] at hm
      rcases hm with rfl | rfl | rfl | rfl | rfl <;> simp [hwn]
    simp [this]

/-- A file in a directory; no directory means the name as it is. -/
def inDir (dir name : Path) : Path :=
  if dir = [] then name
  else if dir.getLast? = some '/' then dir ++ name
  else dir ++ '/' :: name

theorem setPathSep_append (d n : Path) : setPathSep d ++ n = inDir d n := by
  unfold setPathSep inDir
  cases h : d.getLast? with
  | none => simp at h; simp [h]
  | some c =>
    have hd : d ≠ [] := by rintro rfl; simp at h
    by_cases hc : c = '/' <;> simp [hc, hd]

/-- Where the build says that the configuration was installed. -/
def installDir (w : World) : Path :=
  match w.configDir, w.prefix with
  | '/' :: rest, _ => '/' :: rest
  | dir, [] => dir
  | dir, c :: pre => c :: pre ++ '/' :: dir

theorem cmakePath_eq (w : World) : cmakePath w = setPathSep (installDir w) := by
  unfold cmakePath installDir
  congr 1
  cases hc : w.configDir with
  | nil => cases hp : w.prefix <;> simp
  | cons c cs =>
    by_cases h : c = '/'
    · subst h; simp
    · cases hp : w.prefix with
      | nil => simp [h]
      | cons d ds =>
        simp [h]

/-- **The process is configured by the first candidate that exists** — for the file named on the command line, else for
the default name; if no candidate exists the built-in values are used, there is no fall back from a named file to the
default file. -/
theorem C96_first_candidate (w : World) (user cwd : Path) (hc : w.cwd = some cwd) :
    let name := if user = [] then "ecal.yaml".toList else user
    loaded w user = .ok (
      [inDir cwd name, inDir (w.ecalData.getD []) name, inDir (installDir w) name, "/etc/ecal/".toList ++ name, name].find?
        w.isFile) := by
  intro name
  rw [loaded_eq w user cwd hc]
  unfold candidates envPath systemPath
  rw [cmakePath_eq, setPathSep_append, setPathSep_append, setPathSep_append, setPathSep_append]
  rfl

/-- A world for the examples: files in the working directory /w and in /etc/ecal. -/
def demo (files : List String) : World :=
  { ecalData := some "/d".toList, cwd := some "/w".toList, configDir := "etc/ecal".toList, «prefix» := "/usr".toList
    isFile := fun p => p ∈ files.map String.toList, home := some "/home/u".toList, pwHome := none }

example : loaded (demo ["/etc/ecal/ecal.yaml", "/usr/etc/ecal/ecal.yaml"]) [] = .ok (some "/usr/etc/ecal/ecal.yaml".toList) ∧
    loaded (demo ["/etc/ecal/ecal.yaml"]) "x.yaml".toList = .ok none ∧
    loaded (demo ["/d/x.yaml", "/w/x.yaml"]) "x.yaml".toList = .ok (some "/w/x.yaml".toList) := by
  refine ⟨?_, ?_, ?_⟩ <;> decide +kernel

/-- Whatever is loaded is a file that exists, and its path ends with the wanted name. -/
theorem C96_loaded_exists (w : World) (user p : Path) (h : loaded w user = .ok (some p)) :
    w.isFile p = true ∧ ∃ dir, p = dir ++ wanted user := by
  cases hc : w.cwd with
  | none => simp [loaded, check, cwdPath, hc] at h
  | some cwd =>
    rw [loaded_eq w user cwd hc] at h
    simp only [Res.ok.injEq] at h
    refine ⟨List.find?_some h, ?_⟩
    have hm := List.mem_of_find?_eq_some h
    simp only [candidates, List.mem_cons, List.not_mem_nil, or_false] at hm
    rcases hm with rfl | rfl | rfl | rfl | rfl
    · exact ⟨_, rfl⟩
    · exact ⟨_, rfl⟩
    · exact ⟨_, rfl⟩
    · exact ⟨_, rfl⟩
    · exact ⟨[], rfl⟩

/-- A file named with its full path is the one that is used — provided no file with the same path exists below the
working directory, ECAL_DATA, the installation or the system directory. -/
theorem C96_full_path_partial (w : World) (user cwd : Path) (hu : user ≠ []) (hc : w.cwd = some cwd)
    (hf : w.isFile user = true)
    (hn : ∀ d ∈ [setPathSep cwd, envPath w, cmakePath w, systemPath], d ≠ [] → w.isFile (d ++ user) = false) :
    loaded w user = .ok (some user) := by
  rw [loaded_eq w user cwd hc]
  have hw : wanted user = user := by simp [wanted, hu]
  rw [hw]
  have key : ∀ d ∈ [setPathSep cwd, envPath w, cmakePath w, systemPath], d ++ user = user ∨ w.isFile (d ++ user) = false := by
    intro d hd
    by_cases h : d = []
    · left; simp [h]
    · right; exact hn d hd h
  have find : ∀ (l : List Path), (∀ d ∈ l, d ++ user = user ∨ w.isFile (d ++ user) = false) →
      (l.map (· ++ user) ++ [user]).find? w.isFile = some user := by
    intro l hl
    induction l with
    | nil => simp [hf]
    | cons d l ih =>
      have ih := ih (fun d hd => hl d (by simp [hd]))
      rcases hl d (by simp) with h | h
      · simp [h, hf]
      · simp only [List.map_cons, List.cons_append, List.find?_cons, h]
        exact ih
  exact congrArg Res.ok (find _ key)

example : loaded (demo ["/home/u/my.yaml", "/etc/ecal/ecal.yaml"]) "/home/u/my.yaml".toList =
    .ok (some "/home/u/my.yaml".toList) := by decide +kernel

/-- Violated: **a file named with its full path can be replaced by another one**.  Full paths are appended to every search
directory first: whoever can create files below one of them (the working directory, say) supplies the configuration,
although the named file exists. -/
theorem C96_violated_full_path (w : World) (user cwd : Path) (_habs : user.head? = some '/') (hc : w.cwd = some cwd)
    (_hf : w.isFile user = true) (hs : w.isFile (setPathSep cwd ++ user) = true) :
    loaded w user = .ok (some (setPathSep cwd ++ user)) := by
  have hu : user ≠ [] := by rintro rfl; simp at _habs
  rw [loaded_eq w user cwd hc]
  have hw : wanted user = user := by simp [wanted, hu]
  rw [hw]
  simp [candidates, hs]

example : loaded (demo ["/home/u/my.yaml", "/w//home/u/my.yaml"]) "/home/u/my.yaml".toList =
    .ok (some "/w//home/u/my.yaml".toList) := by decide +kernel

/-- The path of the active configuration file that the library reports is the file that was loaded — if no file was
named, the working directory holds no such file and a file was loaded from a directory of the search list. -/
theorem C96_active_file_partial (w : World) (cwd : Path) (hc : w.cwd = some cwd)
    (h1 : w.isFile (setPathSep cwd ++ defaultName) = false) (h2 : w.isFile defaultName = false)
    (h3 : ∃ d ∈ [envPath w, cmakePath w, systemPath], w.isFile (d ++ defaultName) = true) :
    loaded w [] = .ok (some (activeFile w)) := by
  rw [loaded_eq w [] cwd hc]
  show Res.ok ((candidates (setPathSep cwd) w defaultName).find? w.isFile) = _
  have hcand : candidates (setPathSep cwd) w defaultName =
      (setPathSep cwd ++ defaultName) :: ((defaultPaths w).map (· ++ defaultName) ++ [defaultName]) := rfl
  rw [hcand, List.find?_cons, h1]
  simp only
  rw [List.find?_append]
  unfold activeFile configPath
  rcases findValid_eq w (defaultPaths w) defaultName with ⟨_, h⟩ | ⟨_, h⟩
  · rcases h with h | ⟨_, _, _, hf, _⟩
    · obtain ⟨d, hd, hf⟩ := h3
      rw [h d hd] at hf
      simp at hf
    · rw [h2] at hf; simp at hf
  · rw [h]; rfl

example : loaded (demo ["/etc/ecal/ecal.yaml"]) [] = .ok (some (activeFile (demo ["/etc/ecal/ecal.yaml"]))) := by
  decide +kernel

/-- Violated: **the reported active file is not the loaded one**.  The working directory is searched first when the
configuration is loaded, but not when the active file is reported; a file named on the command line is never
reported. -/
theorem C96_violated_active_file :
    (∃ w, loaded w [] = .ok (some "/w/ecal.yaml".toList) ∧ activeFile w = "/etc/ecal/ecal.yaml".toList) ∧
    ∃ w, loaded w "x.yaml".toList = .ok (some "/d/x.yaml".toList) ∧ activeFile w = "/etc/ecal/ecal.yaml".toList := by
  refine ⟨⟨demo ["/w/ecal.yaml", "/etc/ecal/ecal.yaml"], ?_, ?_⟩, ⟨demo ["/d/x.yaml", "/etc/ecal/ecal.yaml"], ?_, ?_⟩⟩ <;>
    decide +kernel

/-- Violated: **a file in the working directory hides the configuration directory**.  If ECAL_DATA is not set, its empty
prefix matches a file in the working directory (`hrel`: a name without directory means the working directory); the
search stops with the empty path, which also means "there is none", although the system directory holds one. -/
theorem C96_violated_config_path (w : World) (he : w.ecalData = none) (hrel : w.isFile defaultName = true) :
    configPath w = [] := by
  have : envPath w = [] := by simp [envPath, he, setPathSep]
  unfold configPath findValid defaultPaths
  rw [this]
  simp [hrel]

example : ∃ w : World, w.ecalData = none ∧ w.isFile defaultName = true ∧ w.isFile (systemPath ++ defaultName) = true :=
  ⟨{ demo ["ecal.yaml", "/w/ecal.yaml", "/etc/ecal/ecal.yaml"] with ecalData := none }, rfl, by decide +kernel, by decide +kernel⟩

/-- With ECAL_DATA set the reported directory is the first of the search list that holds the file. -/
theorem C96_config_path_partial (w : World) (d : Path) (he : w.ecalData = some d) (hd : d ≠ [])
    (hi : w.configDir ≠ []) :
    configPath w = (([envPath w, cmakePath w, systemPath]).find? (fun p => w.isFile (p ++ defaultName))).getD [] ∧
    ∀ p ∈ [envPath w, cmakePath w, systemPath], p ≠ [] := by
  refine ⟨rfl, ?_⟩
  intro p hp
  simp only [List.mem_cons, List.not_mem_nil, or_false] at hp
  rcases hp with rfl | rfl | rfl
  · unfold envPath; rw [he]; exact setPathSep_ne_nil hd
  · unfold cmakePath
    apply setPathSep_ne_nil
    split
    · exact hi
    · simp
  · decide

/-- The library can be initialised in every environment in which the working directory exists and the user has a home:
nothing else is undefined. -/
theorem C96_defined_iff (w : World) (user : Path) :
    (loaded w user ≠ .ub ↔ w.cwd.isSome = true) ∧
    (logPath w ≠ .ub ↔ w.home.isSome = true ∨ w.pwHome.isSome = true) := by
  constructor
  · cases hc : w.cwd with
    | none => simp [loaded, check, cwdPath, hc]
    | some cwd => rw [loaded_eq w user cwd hc]; simp
  · unfold logPath homePath
    cases hh : w.home <;> cases hp : w.pwHome <;> simp

/-- Violated: **a removed working directory, or a user without an entry and without HOME (as in many containers), is
undefined behaviour**: a string is made of a null pointer, respectively a null pointer is followed. -/
theorem C96_violated_null_pointer :
    (∀ w user, w.cwd = none → loaded w user = .ub) ∧ ∀ w, w.home = none → w.pwHome = none → logPath w = .ub := by
  constructor
  · intro w user h; simp [loaded, check, cwdPath, h]
  · intro w h1 h2; simp [logPath, homePath, h1, h2]

/-- Log files go below the home directory of the user, whatever else is set. -/
theorem C96_log_path (w : World) (h : Path) (hh : w.home = some h) :
    logPath w = .ok (h ++ "/.ecal/logs/".toList) := by
  simp [logPath, homePath, hh]

/-- **C96** The directory of the user is `.ecal` in the home directory - of the environment, else of the password
database - and the log files are in its `logs`. -/
theorem C96_home_and_log_path (w : World) (h : Path) (hh : w.home = some h ∨ (w.home = none ∧ w.pwHome = some h)) :
    homePath w = .ok (h ++ "/.ecal/".toList) ∧ logPath w = .ok (h ++ "/.ecal/logs/".toList) := by
  have h1 : homePath w = .ok (h ++ "/.ecal/".toList) := by
    rcases hh with hh | ⟨hh, hp⟩
    · unfold homePath; rw [hh]; simp
    · unfold homePath; rw [hh, hp]; simp
  refine ⟨h1, ?_⟩
  unfold logPath
  rw [h1]
  simp

/-- **C96, violated**: without either the null pointer that `getpwuid` returned is dereferenced. -/
theorem C96_violated_no_home (w : World) (h1 : w.home = none) (h2 : w.pwHome = none) :
    homePath w = .ub ∧ logPath w = .ub := by
  have : homePath w = .ub := by unfold homePath; rw [h1, h2]
  exact ⟨this, by unfold logPath; rw [this]⟩

end Ecal.Config.Search
