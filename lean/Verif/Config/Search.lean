/-!
# Where the configuration file and the user's directories are looked for

Code modelled (Linux): `/repo/ecal/core/src/config/ecal_config_initializer.cpp`: `setPathSep` L68-80,
`eCALDataEnvPath` L82-87, `cwdPath` L89-95, `eCALDataCMakePath` L97-116, `eCALDataSystemPath` L118-135,
`isValidConfigFilePath` L137-142, `findValidConfigPath` L144-157, `getEcalDefaultPaths` L159-177,
`checkForValidConfigFilePath` L179-198, `Configuration::InitFromFile` L219-235, the constructor L242-258,
`InitFromConfig` L260-263, `GeteCALConfigPath` L308-314, `GeteCALHomePath` L316-356, `GeteCALLogPath` L379-399,
`GeteCALActiveIniFile` L401-406; `/repo/ecal/core/src/util/getenvvar.h` L33-46; the names in
`/repo/ecal/core/src/ecal_def.h` L36-41.

Simplifications.
* Paths are lists of characters; the file system is asked with the path as the code writes it (`isFile`).
  Where the meaning of relative paths matters, the theorems say so.
* The command line parser (the library TCLAP) is given by its result, the name of the file or `""`.
* Reading the file is C64-C66; here only which file is read.
* The creation of missing directories is left out.
-/

namespace Ecal.Config.Search

abbrev Path := List Char

/-- What the code asks the operating system and the build. -/
structure World where
  ecalData  : Option Path          -- the environment variable ECAL_DATA
  cwd       : Option Path          -- `getcwd`; `none`: it fails (the directory was removed)
  configDir : Path                 -- `ECAL_INSTALL_CONFIG_DIR`
  «prefix»  : Path                 -- `ECAL_INSTALL_PREFIX`
  isFile    : Path → Bool          -- exists and is a regular file
  home      : Option Path          -- the environment variable HOME
  pwHome    : Option Path          -- `pw_dir` of the user's entry; `none`: there is no entry

/-- Results; `ub`: a string is built from a null pointer. -/
inductive Res (α : Type) where
  | ok (a : α)
  | ub
deriving DecidableEq, Repr

/-- `setPathSep`, L68-80. -/
def setPathSep (p : Path) : Path :=
  match p.getLast? with
  | none => p
  | some c => if c ≠ '/' then p ++ ['/'] else p

/-- `eCALDataEnvPath`, L82-87. -/
def envPath (w : World) : Path := setPathSep (w.ecalData.getD [])

/-- `cwdPath`, L89-95. -/
def cwdPath (w : World) : Res Path :=
  match w.cwd with
  | none => .ub
  | some p => .ok (setPathSep p)

/-- `eCALDataCMakePath`, L97-116. -/
def cmakePath (w : World) : Path :=
  setPathSep (
    if w.configDir.head? = some '/' ∨ w.prefix = [] then w.configDir
    else w.prefix ++ ['/'] ++ w.configDir)

/-- `eCALDataSystemPath`, L118-135. -/
def systemPath : Path := setPathSep "/etc/ecal".toList

/-- `getEcalDefaultPaths`, L159-177. -/
def defaultPaths (w : World) : List Path := [envPath w, cmakePath w, systemPath]

/-- `findValidConfigPath`, L144-157: the empty string if none fits. -/
def findValid (w : World) (paths : List Path) (name : Path) : Path :=
  (paths.find? (fun p => w.isFile (p ++ name))).getD []

/-- `checkForValidConfigFilePath`, L179-198: the empty string if there is no file. -/
def check (w : World) (name : Path) : Res Path :=
  match cwdPath w with
  | .ub => .ub
  | .ok cwd =>
    let found := findValid w (cwd :: defaultPaths w) name
    if found = [] then .ok (if w.isFile (name ++ []) then name else found)
    else .ok (found ++ name)

/-- `ECAL_DEFAULT_CFG`. -/
def defaultName : Path := "ecal.yaml".toList

/-- The file that configures the process, L242-263, L219-235: the one named on the command line, else the
default; `none`: the built-in values are used. -/
def loaded (w : World) (user : Path) : Res (Option Path) :=
  match check w (if user ≠ [] then user else defaultName) with
  | .ub => .ub
  | .ok p => .ok (if p ≠ [] then some p else none)

/-- `GeteCALConfigPath`, L308-314. -/
def configPath (w : World) : Path := findValid w (defaultPaths w) defaultName

/-- `GeteCALActiveIniFile`, L401-406. -/
def activeFile (w : World) : Path := configPath w ++ defaultName

/-- `GeteCALHomePath`, L316-356. -/
def homePath (w : World) : Res Path :=
  match w.home with
  | some h => .ok (h ++ ['/'] ++ ".ecal".toList ++ ['/'])
  | none => match w.pwHome with
    | none => .ub
    | some h => .ok (h ++ ['/'] ++ ".ecal".toList ++ ['/'])

/-- `GeteCALLogPath`, L379-399. -/
def logPath (w : World) : Res Path :=
  match homePath w with
  | .ub => .ub
  | .ok h => .ok (h ++ "logs".toList ++ ['/'])

end Ecal.Config.Search
