import Verif.Lemmas.BisectE
import Verif.Lemmas.Calendar
import Verif.Lemmas.Dict
import Verif.Lemmas.Graph
import Verif.Lemmas.Interp
import Verif.Lemmas.ListAux
import Verif.Lemmas.Polyline
import Verif.Lemmas.RateLemmas
import Verif.Lemmas.SortedSet
import Verif.Lemmas.Table
import Verif.Lemmas.Temporal
import Verif.Model.Archive
import Verif.Model.Assembly
import Verif.Model.Cache
import Verif.Model.Calendar
import Verif.Model.Campbell
import Verif.Model.Chart
import Verif.Model.ChartFile
import Verif.Model.Coarse
import Verif.Model.Collections
import Verif.Model.Compare
import Verif.Model.Components
import Verif.Model.CompressorChart
import Verif.Model.Consumer
import Verif.Model.ConsumerMap
import Verif.Model.ConvertExpr
import Verif.Model.Dates
import Verif.Model.Diagram
import Verif.Model.Distribution
import Verif.Model.Exporter
import Verif.Model.Expression
import Verif.Model.Facility
import Verif.Model.Feasibility
import Verif.Model.Files
import Verif.Model.Finders
import Verif.Model.Flash
import Verif.Model.Fuel
import Verif.Model.GenericChart
import Verif.Model.Genset
import Verif.Model.Graph
import Verif.Model.InputSeries
import Verif.Model.Inputs
import Verif.Model.Intensity
import Verif.Model.Java
import Verif.Model.Lenient
import Verif.Model.Lexer
import Verif.Model.Loops
import Verif.Model.ModelFiles
import Verif.Model.Names
import Verif.Model.Numbers
import Verif.Model.Outlet
import Verif.Model.Pipeline
import Verif.Model.Planar
import Verif.Model.Prepare
import Verif.Model.ProcessMap
import Verif.Model.ProcessUnits
import Verif.Model.Prognosis
import Verif.Model.Pump
import Verif.Model.PumpMap
import Verif.Model.Rates
import Verif.Model.References
import Verif.Model.Report
import Verif.Model.Resource
import Verif.Model.ResultTable
import Verif.Model.Rules
import Verif.Model.Run
import Verif.Model.RunFiles
import Verif.Model.Sampled
import Verif.Model.SampledFile
import Verif.Model.Schema
import Verif.Model.Search
import Verif.Model.Section
import Verif.Model.Sections
import Verif.Model.Shafts
import Verif.Model.Simplified
import Verif.Model.Slices
import Verif.Model.Solver
import Verif.Model.Spatial
import Verif.Model.Stage
import Verif.Model.StreamMap
import Verif.Model.System
import Verif.Model.SystemMap
import Verif.Model.Table
import Verif.Model.Time
import Verif.Model.Totals
import Verif.Model.Train
import Verif.Model.Turbine
import Verif.Model.Units
import Verif.Model.Variables
import Verif.Model.Version
import Verif.Model.YamlLocate
import Verif.Model.YamlRead
import Verif.Props.C01
import Verif.Props.C02
import Verif.Props.C03
import Verif.Props.C04
import Verif.Props.C05
import Verif.Props.C06
import Verif.Props.C07
import Verif.Props.C08
import Verif.Props.C09
import Verif.Props.C10
import Verif.Props.C100
import Verif.Props.C101
import Verif.Props.C102
import Verif.Props.C103
import Verif.Props.C104
import Verif.Props.C105
import Verif.Props.C106
import Verif.Props.C107
import Verif.Props.C108
import Verif.Props.C109
import Verif.Props.C11
import Verif.Props.C110
import Verif.Props.C111
import Verif.Props.C112
import Verif.Props.C113
import Verif.Props.C114
import Verif.Props.C115
import Verif.Props.C116
import Verif.Props.C117
import Verif.Props.C118
import Verif.Props.C119
import Verif.Props.C12
import Verif.Props.C120
import Verif.Props.C13
import Verif.Props.C14
import Verif.Props.C15
import Verif.Props.C16
import Verif.Props.C17
import Verif.Props.C18
import Verif.Props.C19
import Verif.Props.C20
import Verif.Props.C21
import Verif.Props.C22
import Verif.Props.C23
import Verif.Props.C24
import Verif.Props.C25
import Verif.Props.C26
import Verif.Props.C27
import Verif.Props.C28
import Verif.Props.C29
import Verif.Props.C30
import Verif.Props.C31
import Verif.Props.C32
import Verif.Props.C33
import Verif.Props.C34
import Verif.Props.C35
import Verif.Props.C36
import Verif.Props.C37
import Verif.Props.C38
import Verif.Props.C39
import Verif.Props.C40
import Verif.Props.C41
import Verif.Props.C42
import Verif.Props.C43
import Verif.Props.C44
import Verif.Props.C45
import Verif.Props.C46
import Verif.Props.C47
import Verif.Props.C48
import Verif.Props.C49
import Verif.Props.C50
import Verif.Props.C51
import Verif.Props.C52
import Verif.Props.C53
import Verif.Props.C54
import Verif.Props.C55
import Verif.Props.C56
import Verif.Props.C57
import Verif.Props.C58
import Verif.Props.C59
import Verif.Props.C60
import Verif.Props.C61
import Verif.Props.C62
import Verif.Props.C63
import Verif.Props.C64
import Verif.Props.C65
import Verif.Props.C66
import Verif.Props.C67
import Verif.Props.C68
import Verif.Props.C69
import Verif.Props.C70
import Verif.Props.C71
import Verif.Props.C72
import Verif.Props.C73
import Verif.Props.C74
import Verif.Props.C75
import Verif.Props.C76
import Verif.Props.C77
import Verif.Props.C78
import Verif.Props.C79
import Verif.Props.C80
import Verif.Props.C81
import Verif.Props.C82
import Verif.Props.C83
import Verif.Props.C84
import Verif.Props.C85
import Verif.Props.C86
import Verif.Props.C87
import Verif.Props.C88
import Verif.Props.C89
import Verif.Props.C90
import Verif.Props.C91
import Verif.Props.C92
import Verif.Props.C93
import Verif.Props.C94
import Verif.Props.C95
import Verif.Props.C96
import Verif.Props.C97
import Verif.Props.C98
import Verif.Props.C99
