import Verif.Model.Text

/-!
# The head of the log file with the feature `additional_log_info`
-/

namespace Nrf

/-- What the libraries `whoami`, `rustc_version_runtime` and `chrono` tell about the run. -/
structure RunnerInfo where
  distro : List Char
  device : List Char
  user : List Char
  rustc : List Char
  utc : List Char
  «local» : List Char

/-- `log.rs` L34-45, `write_user_infos`. -/
def RunnerInfo.userInfos (i : RunnerInfo) : List Char :=
  lit "OS: " ++ i.distro ++ lit "\n" ++ lit "Host: " ++ i.device ++ lit "\n" ++ lit "Username: " ++ i.user ++ lit "\n"

/-- `log.rs` L47-52, `write_rustc_info`. -/
def RunnerInfo.rustcInfo (i : RunnerInfo) : List Char := lit "Rust version: " ++ i.rustc ++ lit "\n"

/-- `log.rs` L19-32, `write_time`. -/
def RunnerInfo.time (i : RunnerInfo) : List Char :=
  lit "Simulation start:\n" ++ lit "  - UTC:   " ++ i.utc ++ lit "\n" ++ lit "  - Local: " ++ i.local ++ lit "\n"

/-- `log.rs` L62-82: the text written by `SolverLog::new`; `none` without the feature. -/
def headText (info : Option RunnerInfo) : List Char :=
  lit "Runner informations\n" ++ lit "===================\n\n" ++
    (match info with
      | some i => i.userInfos ++ i.rustcInfo
      | none => []) ++
    lit "newton_rootfinder version: " ++ lit "0.11.0" ++ lit "\n" ++
    (match info with
      | some i => i.time
      | none => []) ++
    lit "\n"

end Nrf
