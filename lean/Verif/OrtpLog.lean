import Verif.Base
/-!
# Model of `my_ortp_logfn` of `src/trau/osmo_ortp.c`: messages of the oRTP library are passed on to the log

Texts are lists of octets without NUL.  A variable argument is given by the letter of the conversion it is meant for and its text.

Not modelled: flags, widths and precisions in conversions; the header the log puts before a message.
-/
namespace Verif.Ortp.Log

abbrev Text := List Byte

structure Arg where
  conv : Byte
  text : Text
  deriving DecidableEq, Repr

/-- the text of the next argument, if it is one for the conversion -/
def take : List Arg → Byte → M (Text × List Arg)
  | [], _ => .error .ub
  | a :: as, d => if a.conv = d then .ok (a.text, as) else .error .ub

/-- `vprintf`: `37` is the percent sign, `p`: the previous octet started a conversion; a conversion that does not fit the argument,
without argument, or cut off is undefined -/
def run (p : Bool) : Text → List Arg → M Text
  | [], _ => if p then .error .ub else .ok []
  | c :: fs, as =>
    if p then
      if c = 37 then do
        let t ← run false fs as
        .ok (37 :: t)
      else do
        let x ← take as c
        let t ← run false fs x.2
        .ok (x.1 ++ t)
    else if c = 37 then run true fs as
    else do
      let t ← run false fs as
      .ok (c :: t)

def printf (f : Text) (as : List Arg) : M Text := run false f as

/-- ortp/logging.h `OrtpLogLevel`; `other`: values that are not a single level -/
inductive Lvl where
  | debug | message | warning | error | fatal | other
  deriving DecidableEq, Repr

/-- libosmocore: `LOGL_DEBUG`, `LOGL_INFO`, `LOGL_NOTICE`, `LOGL_ERROR`, `LOGL_FATAL` -/
inductive OsmoLvl where
  | debug | info | notice | error | fatal
  deriving DecidableEq, Repr

/-- osmo_ortp.c:74-96 `level_map`, `ortp_to_osmo_lvl` -/
def level : Lvl → OsmoLvl
  | .debug => .debug
  | .message => .info
  | .warning => .notice
  | .error => .error
  | .fatal => .fatal
  | .other => .error

/-- osmo_ortp.c:109-128: the format given to `osmo_vlogp` (`none`: it is not called); the domain may be missing -/
def format (domain : Option Text) (fmt : Text) : Option Text :=
  if fmt = [] then none
  else some (domain.getD [] ++ (if domain.getD [] ≠ [] then [58, 32] else []) ++ fmt ++ (if fmt.getLast? ≠ some 10 then [10] else []))

/-- osmo_ortp.c:98-134 `my_ortp_logfn`: what is logged -/
def logfn (domain : Option Text) (lev : Lvl) (fmt : Text) (args : List Arg) : M (Option (OsmoLvl × Text)) :=
  match format domain fmt with
  | none => .ok none
  | some f => do
    let t ← printf f args
    .ok (some (level lev, t))

end Verif.Ortp.Log
