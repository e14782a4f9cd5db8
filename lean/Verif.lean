import Verif.Props.Grid
import Verif.Props.Copy
import Verif.Props.Shard
import Verif.Props.Keys
import Verif.Props.Split
import Verif.Props.Header
import Verif.Proofs.Format
import Verif.Proofs.Prog
import Verif.Model.Access
import Verif.Proofs.Jobs
import Verif.Props.Crash
import Verif.Props.ChunkApi
import Verif.Props.Sharded
import Verif.Props.ShardedConc
import Verif.Props.Mutex
import Verif.Proofs.ShardTask
import Verif.Proofs.ShardRegion
import Verif.Props.Pool
import Verif.Props.ForEach
import Verif.Props.Functions
import Verif.Props.Unique
import Verif.Props.Varlen
import Verif.Props.ShardedFunctions
import Verif.Model.Double
import Verif.Model.Json
import Verif.Model.Types
import Verif.Model.Metadata
import Verif.Spec.Metadata
import Verif.Proofs.Metadata
import Verif.Props.Metadata
import Verif.Props.Attributes
import Verif.Proofs.Factory
import Verif.Spec.Factory
import Verif.Props.Factory
import Verif.Proofs.Classify
import Verif.Props.Classify
import Verif.Model.Python
import Verif.Spec.Files
import Verif.Spec.Confined
import Verif.Proofs.Keeps
import Verif.Proofs.Confined
import Verif.Props.Confined
import Verif.Props.Files
import Verif.Model.Index
import Verif.Spec.Index
import Verif.Proofs.Index
import Verif.Proofs.Rectify
import Verif.Props.Index
import Verif.Props.Rectify
import Verif.Model.S3
import Verif.Spec.S3
import Verif.Proofs.S3
import Verif.Proofs.S3Remove
import Verif.Props.S3
import Verif.Proofs.Atomic
import Verif.Props.S3Store
import Verif.Spec.Faults
import Verif.Proofs.Faults
import Verif.Props.Faults
import Verif.Model.S3Nodes
import Verif.Spec.S3Nodes
import Verif.Proofs.S3Nodes
import Verif.Props.S3Nodes
import Verif.Props.S3Factory
import Verif.Model.Visit
import Verif.Spec.Visit
import Verif.Proofs.Visit
import Verif.Props.Visit
import Verif.Proofs.S3Visit
import Verif.Props.S3Visit
import Verif.Spec.Formats
import Verif.Proofs.Formats
import Verif.Props.Formats
import Verif.Model.PyDataset
import Verif.Spec.PyDataset
import Verif.Proofs.PyDataset
import Verif.Proofs.Grows
import Verif.Props.PyDataset
import Verif.Props.PyRequire
import Verif.Spec.Rewrite
import Verif.Props.Rewrite
import Verif.Model.FileStore
import Verif.Model.Opened
import Verif.Spec.FileStore
import Verif.Proofs.FileStore
import Verif.Proofs.Opened
import Verif.Props.FileStore
import Verif.Spec.Persist
import Verif.Proofs.Persist
import Verif.Props.Persist
import Verif.Model.Remove
import Verif.Proofs.Remove
import Verif.Proofs.WellFormed
import Verif.Props.Remove
import Verif.Spec.Container
import Verif.Proofs.Container
import Verif.Proofs.ContainerInv
import Verif.Proofs.ContainerHist
import Verif.Props.Container
import Verif.Model.PyAttrs
import Verif.Spec.PyAttrs
import Verif.Proofs.PyAttrs
import Verif.Props.PyAttrs
import Verif.Model.Compressors
import Verif.Spec.Compressors
import Verif.Proofs.Compressors
import Verif.Props.Compressors
import Verif.Model.Pickle
import Verif.Spec.Pickle
import Verif.Proofs.Pickle
import Verif.Props.Pickle
import Verif.Model.PyScalar
import Verif.Spec.PyScalar
import Verif.Proofs.PyScalar
import Verif.Props.PyScalar
import Verif.Model.PyChunk
import Verif.Spec.PyChunk
import Verif.Proofs.PyChunk
import Verif.Props.PyChunk
import Verif.Model.PyRegion
import Verif.Spec.PyRegion
import Verif.Props.PyRegion
import Verif.Model.PyProps
import Verif.Spec.PyProps
import Verif.Props.PyProps
import Verif.Spec.PySession
import Verif.Props.PySession
import Verif.Model.Steps
import Verif.Spec.Steps
import Verif.Proofs.Steps
import Verif.Props.Steps
import Verif.Proofs.Apart
import Verif.Spec.Concurrent
import Verif.Proofs.Concurrent
import Verif.Props.Concurrent
import Verif.Model.S3Python
import Verif.Spec.S3Python
import Verif.Props.S3Python
import Verif.Model.S3Data
import Verif.Spec.S3Persist
import Verif.Proofs.S3Persist
import Verif.Props.S3Persist
import Verif.Model.S3Group
import Verif.Spec.S3Container
import Verif.Proofs.S3Paths
import Verif.Proofs.S3Container
import Verif.Proofs.S3ContainerInv
import Verif.Proofs.S3ContainerHist
import Verif.Proofs.S3Ends
import Verif.Proofs.S3Delete
import Verif.Props.S3Container
import Verif.Model.JsonText
import Verif.Spec.JsonText
import Verif.Proofs.JsonScan
import Verif.Proofs.JsonTorn
import Verif.Proofs.JsonWrite
import Verif.Proofs.Utf8
import Verif.Proofs.JsonDoc
import Verif.Props.JsonText
import Verif.Spec.Exchange
import Verif.Proofs.Exchange
import Verif.Props.Exchange
import Verif.Spec.JsonGrammar
import Verif.Proofs.JsonGrammar
import Verif.Props.JsonGrammar
import Verif.Spec.Foreign
import Verif.Proofs.Foreign
import Verif.Proofs.ForeignUse
import Verif.Props.Foreign
import Verif.Props.ForeignUse
import Verif.Spec.S3Foreign
import Verif.Proofs.S3Foreign
import Verif.Props.S3Foreign
import Verif.Model.BatchSize
import Verif.Proofs.BatchSize
import Verif.Props.BatchSize
import Verif.Proofs.ContainerArray
import Verif.Proofs.ContainerBytes
import Verif.Props.ForeignContainer
import Verif.Proofs.S3ContainerArray
import Verif.Proofs.S3ContainerBytes
import Verif.Props.S3ForeignContainer
import Verif.Props.S3PySession
import Verif.Spec.Together
import Verif.Proofs.Together
import Verif.Proofs.TogetherJobs
import Verif.Proofs.TogetherRun
import Verif.Props.Together
import Verif.Model.S3Together
import Verif.Spec.S3Together
import Verif.Proofs.S3Together
import Verif.Proofs.S3TogetherRun
import Verif.Props.S3Together
import Verif.Model.Alongside
import Verif.Spec.Alongside
import Verif.Proofs.Alongside
import Verif.Proofs.AlongsideRun
import Verif.Props.Alongside
import Verif.Proofs.S3Crash
import Verif.Proofs.ArrayMix
import Verif.Spec.S3Crash
import Verif.Proofs.S3CrashRun
import Verif.Props.S3Crash
import Verif.Spec.S3Rewrite
import Verif.Props.S3Rewrite
import Verif.Spec.Interrupted
import Verif.Proofs.Interrupted
import Verif.Props.Interrupted
import Verif.Spec.Again
import Verif.Proofs.Again
import Verif.Props.Again
import Verif.Props.S3Deleting
import Verif.Props.S3DeleteChunks
import Verif.Props.NodesCrash
import Verif.Props.DeleteChunks
import Verif.Props.SameNode
import Verif.Props.Watch
import Verif.Props.S3Watch
import Verif.Props.S3Edit
import Verif.Props.S3Race
import Verif.Props.S3RemoveWatch
