import Verif.Model.Time
/-!
# Periods without a change of the clocks

Zones with daylight saving change their offset a few times a year.  The definitions here say that the
instants from `lo` to `hi` are a period in which no zone of the program changes its offset (and in which
no wall-clock time of the period is also shown at another time).
-/
namespace Asyncz

/-- From instant `lo` to instant `hi` the clock of the zone shows UTC plus `c`, and the wall-clock times it
shows in that period mean just those instants. -/
def Zone.Steady (z : Zone) (c lo hi : Int) : Prop :=
  ∀ u, lo ≤ u → u ≤ hi → z.loc u = (u + c, false) ∧ ∀ f, z.off (u + c) f = c

/-- No zone of the program changes its offset from `lo` to `hi`. -/
def TzEnv.Steady (E : TzEnv) (lo hi : Int) : Prop := ∀ z, ∃ c, (E z).Steady c lo hi

/-- The date-time is one that its clock shows in the period. -/
def Dt.In (E : TzEnv) (lo hi : Int) (d : Dt) : Prop :=
  ∃ u, lo ≤ u ∧ u ≤ hi ∧ d.wall = ((E d.tz).loc u).1

/-- The date-time is in the period, or is after it, or is before it, both as an instant and on its clock. -/
def Dt.Clear (E : TzEnv) (lo hi : Int) (d : Dt) : Prop :=
  d.In E lo hi ∨
  (hi < d.inst E ∧ ∀ u, lo ≤ u → u ≤ hi → ((E d.tz).loc u).1 < d.wall) ∨
  (d.inst E < lo ∧ ∀ u, lo ≤ u → u ≤ hi → d.wall < ((E d.tz).loc u).1)

end Asyncz
