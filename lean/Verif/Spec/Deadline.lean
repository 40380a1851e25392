import Verif.Model.Deadline
/-
Deadlines as the system's waits take them (C92).
-/
namespace WS.Spec.Deadline

/-- Seconds and nanoseconds as POSIX wants them: the nanoseconds are less than a second, and not negative. -/
def Normal (x : Int × Int) : Prop := 0 ≤ x.2 ∧ x.2 < 1000000000

/-- The instant, in nanoseconds since the epoch. -/
def nanos (x : Int × Int) : Int := x.1 * 1000000000 + x.2

/-- Clock readings within the range of the library's times (about 292000 years from 1970 on). -/
def Reading (x : Int × Int) : Prop := Normal x ∧ 0 ≤ x.1 ∧ x.1 < 9223372036854

end WS.Spec.Deadline
