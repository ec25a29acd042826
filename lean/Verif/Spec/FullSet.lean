import Verif.Spec.TsRange
import Verif.Spec.Histories
import Verif.Model.Intervals
import Verif.Spec.TsApi
/-! The records of a series. -/
namespace Spec
open Hec Hec.Spec

/-- The pathname is that of a record of the series `ps`: it has these parts, letter case ignored, and any D part. -/
def InSeries (ps : List Bytes) (p : Bytes) : Prop := ∃ d, IsPart d ∧ sameUpToCase p (join (ps.set 3 d))

/-- All pathnames in the file have six parts of 128 characters or fewer. -/
def ShortNames (c : Cfg) (s : Eng) : Prop :=
  ∀ p R, p.length ≤ 392 → zread c s p = some (some R) → ∃ qs, SixParts qs ∧ (∀ x ∈ qs, x.length ≤ 128) ∧ p = join qs

/-- The records of the series have dates from 01Jan0100 to 31Dec9999 for D parts. -/
def DatedRecords (julianOf : Date → Int) (c : Cfg) (s : Eng) (ps : List Bytes) : Prop :=
  ∀ p R, p.length ≤ 392 → zread c s p = some (some R) → InSeries ps p → ∃ j, julianOf ⟨100, 1, 1⟩ ≤ j ∧ j ≤ julianOf ⟨9999, 12, 31⟩ ∧ NamesDay ps j p

/-- A name that can be asked for: six parts of 128 printable characters or fewer without stars, and a D part of 22 or fewer (a
range of dates, as in `01Jan2000 - 01Jan2010`, has 21).  A regular interval is written as the library writes it. -/
structure SeriesSeed (ps : List Bytes) : Prop where
  six : SixParts ps
  fits : (join ps).length ≤ 392
  room : blockLength ps ≤ 392
  short : ∀ x ∈ ps, x.length ≤ 128 ∧ 42 ∉ x ∧ Printable x
  dpart : ∀ d, ps[3]? = some d → d.length ≤ 22
  epart : ∀ e secs name, ps[4]? = some e → ePartToSeconds 7 e = some (0, secs, name) → sameUpToCase name e

/-- Every record of the series is the block of some time of the regular interval `r`. -/
def OnlyBlocks (julianOf : Date → Int) (r : RegInterval) (fits : Int → Prop) (c : Cfg) (s : Eng) (ps : List Bytes) : Prop :=
  ∀ p R, p.length ≤ 392 → zread c s p = some (some R) → InSeries ps p →
    ∃ a d, fits a ∧ DayOf julianOf r a d ∧ julianOf (r.block.start d) ≤ julianOf ⟨9999, 12, 31⟩ ∧ NamesDay ps (julianOf (r.block.start d)) p

end Spec
