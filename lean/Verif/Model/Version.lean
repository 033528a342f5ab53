/-
Model of cmake/gotcha_config.h.in.  The macros are functions of `int` values; simplification: their
arguments are numbers, not expressions (the macro does not parenthesise them), and there is no
overflow (versions below 21474).
-/
namespace Gotcha.Version

/-- cmake/gotcha_config.h.in:4 `GOTCHA_GET_VERSION`. -/
def getVersion (major minor patch : Nat) : Nat := major * 100000 + minor * 100 + patch

/-- cmake/gotcha_config.h.in:6 `GOTCHA_VERSION_MAJOR`. -/
def majorOf (v : Nat) : Nat := v / 100000

/-- cmake/gotcha_config.h.in:7 `GOTCHA_VERSION_MINOR`. -/
def minorOf (v : Nat) : Nat := (v / 100) % 1000

/-- cmake/gotcha_config.h.in:8 `GOTCHA_VERSION_PATCH`. -/
def patchOf (v : Nat) : Nat := v % 100

/-- CMakeLists.txt:13 with cmake/gotcha_config.h.in:5 `GOTCHA_VERSION`. -/
def version : Nat := getVersion 1 0 7

end Gotcha.Version
