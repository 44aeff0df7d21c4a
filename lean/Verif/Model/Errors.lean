import Verif.Model.Basic
/-
Loading a configuration from a file, and the errors of configurations as `std::error::Error`s: /repo/omnipaxos/src/errors.rs and
omni_paxos.rs 51-58 (feature "toml_config").

Reading the file and parsing TOML are parameters: functions that return a value or an error of another crate.
-/
namespace Omni

/-- An error of another crate (`io::Error`, `toml::de::Error`): its message, and its cause if it has one. -/
inductive Foreign where
  | leaf (msg : String)
  | caused (msg : String) (cause : Foreign)
deriving DecidableEq, Repr

/-- `ConfigError` with all its constructors: errors.rs 9-18. -/
inductive LoadError where
  | readFile (e : Foreign)
  | parse (e : Foreign)
  | invalidConfig (e : ConfigError)
deriving DecidableEq, Repr

/-- A `&dyn Error`. -/
inductive AnyError where
  | config (e : LoadError)
  | foreign (e : Foreign)
deriving DecidableEq, Repr

/-- `source`: errors.rs 32-42 for our errors; those of other crates have the cause they have. -/
def AnyError.source : AnyError → Option AnyError
  | .config (.readFile e) => some (.foreign e)
  | .config (.parse e) => some (.foreign e)
  | .config (.invalidConfig e) => some (.config (.invalidConfig e))
  | .foreign (.leaf _) => none
  | .foreign (.caused _ e) => some (.foreign e)

/-- `OmniPaxosConfig::with_toml`: omni_paxos.rs 53-58, with the conversions of errors.rs 44-56. -/
def withToml (read : String → Except Foreign String) (parse : String → Except Foreign OmniPaxosConfig) (file_path : String) :
    Except LoadError OmniPaxosConfig :=
  match read file_path with
  | .error e => .error (.readFile e)
  | .ok config_file => match parse config_file with
    | .error e => .error (.parse e)
    | .ok config => match config.validate with
      | .error e => .error (.invalidConfig e)
      | .ok () => .ok config

end Omni
