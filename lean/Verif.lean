import Verif.Props.Calendar
import Verif.Props.Times
import Verif.Props.Periods
import Verif.Props.Encoding
import Verif.Props.Hash
import Verif.Props.Pathnames
import Verif.Props.Irreg
import Verif.Props.IrregSeries
import Verif.Props.Intervals
import Verif.Props.TimeStrings
import Verif.Props.Engine
import Verif.Props.EngineCases
import Verif.Props.Pack
import Verif.Props.Reg
import Verif.Props.RegSeries
import Verif.Props.Trim
import Verif.Props.Alloc
import Verif.Props.Buffer
import Verif.Props.Locks
import Verif.Props.Dates
import Verif.Props.Catalog
import Verif.Props.Wild
import Verif.Props.Rename
import Verif.Props.RenameCases
import Verif.Props.RenamePaths
import Verif.Props.Headers
import Verif.Props.HeadersCases
import Verif.Props.HeadersOld
import Verif.Props.Copy
import Verif.Props.CopyCases
import Verif.Props.CopyRecordCases
import Verif.Props.Records
import Verif.Props.Paired
import Verif.Props.PairedPart
import Verif.Props.Location
import Verif.Props.Api
import Verif.Props.ApiPaired
import Verif.Props.ApiLocation
import Verif.Props.ApiCatalog
import Verif.Props.Grid
import Verif.Props.GridCases
import Verif.Props.SeriesFile
import Verif.Props.SeriesFileCases
import Verif.Props.ItsFile
import Verif.Props.ItsFileCases
import Verif.Props.FPart
import Verif.Props.FPartCases
import Verif.Props.TsApiCases
import Verif.Props.ItsApiCases
import Verif.Props.OldNames
import Verif.Props.TsRangeCases
import Verif.Props.SqueezeCases
import Verif.Props.Check
import Verif.Props.TsFailures
import Verif.Props.CheckPassed
import Verif.Props.TsSizes
import Verif.Props.TsSizesCases
import Verif.Props.TsInfo
import Verif.Props.TsInfoCases
import Verif.Props.Crc
import Verif.Props.WhatChanged
import Verif.Props.Undelete
import Verif.Props.UndeleteCases
import Verif.Props.CollectionCases
import Verif.Props.TextFile
import Verif.Props.Open
import Verif.Props.SortCases
import Verif.Props.DateTimes
import Verif.Props.RecordSize
import Verif.Props.ErrorChain
import Verif.Props.Tin
import Verif.Props.FullSet
import Verif.Props.FullSetCases
import Verif.Props.TsPattern
import Verif.Props.TsPatternCases
import Verif.Props.Settings
import Verif.Props.MessageLevels
import Verif.Props.Base64
import Verif.Props.Delimited
import Verif.Props.PathStats
import Verif.Props.FileTimes
import Verif.Props.Compare
import Verif.Props.Current
import Verif.Props.Commas
import Verif.Props.SqueezeAdvice
import Verif.Props.CatalogFile
import Verif.Props.AliasChain
