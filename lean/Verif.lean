import Verif.Basic
import Verif.Model.Alignment
import Verif.Model.Allocators
import Verif.Model.Analyze
import Verif.Model.Arrow
import Verif.Model.ChunkHeap
import Verif.Model.CoreErrors
import Verif.Model.CoreReader
import Verif.Model.CsvColumns
import Verif.Model.CsvDecode
import Verif.Model.CsvLive
import Verif.Model.CsvNumbers
import Verif.Model.CsvReader
import Verif.Model.CsvSchema
import Verif.Model.DataReader
import Verif.Model.DataStore
import Verif.Model.Decimal
import Verif.Model.Estimate
import Verif.Model.Exchange
import Verif.Model.Fifo
import Verif.Model.FileTree
import Verif.Model.Gil
import Verif.Model.Glob
import Verif.Model.Gzip
import Verif.Model.Hll
import Verif.Model.Image
import Verif.Model.ImageReader
import Verif.Model.InputStream
import Verif.Model.Insights
import Verif.Model.InstanceReaders
import Verif.Model.ListErrors
import Verif.Model.LiveFile
import Verif.Model.Memory
import Verif.Model.Number
import Verif.Model.OpenErrors
import Verif.Model.OsResources
import Verif.Model.Pandas
import Verif.Model.Parquet
import Verif.Model.Pipeline
import Verif.Model.Poke
import Verif.Model.ProtoReader
import Verif.Model.Protobuf
import Verif.Model.PyAlive
import Verif.Model.PyBuffer
import Verif.Model.PyEqual
import Verif.Model.PyError
import Verif.Model.PyExample
import Verif.Model.PyLogging
import Verif.Model.PyLoop
import Verif.Model.PyOptions
import Verif.Model.PySchema
import Verif.Model.PyShare
import Verif.Model.PyStream
import Verif.Model.Races
import Verif.Model.ReaderOptions
import Verif.Model.RecordIO
import Verif.Model.RefCount
import Verif.Model.Reports
import Verif.Model.S3World
import Verif.Model.Sagemaker
import Verif.Model.Schema
import Verif.Model.SchemaReader
import Verif.Model.Sdk
import Verif.Model.Sessions
import Verif.Model.SharedStore
import Verif.Model.SizeHint
import Verif.Model.Slice
import Verif.Model.Sparse
import Verif.Model.StoreId
import Verif.Model.StoreReaders
import Verif.Model.Stores
import Verif.Model.StreamReader
import Verif.Model.Tensor
import Verif.Model.Text
import Verif.Model.TextLineReader
import Verif.Model.TextSource
import Verif.Model.ThreadStart
import Verif.Model.ToDict
import Verif.Model.Tokenizer
import Verif.Model.Utf8Stream
import Verif.Model.Warnings
import Verif.Model.Wire
import Verif.Model.Xxhash
import Verif.Proofs.Alignment
import Verif.Proofs.Analyze
import Verif.Proofs.Arrow
import Verif.Proofs.Batching
import Verif.Proofs.ChunkHeap
import Verif.Proofs.CoreErrors
import Verif.Proofs.CoreReader
import Verif.Proofs.CsvBatch
import Verif.Proofs.CsvColumns
import Verif.Proofs.CsvDecode
import Verif.Proofs.CsvLive
import Verif.Proofs.CsvReader
import Verif.Proofs.CsvRows
import Verif.Proofs.CsvSchema
import Verif.Proofs.CutGzip
import Verif.Proofs.CutImages
import Verif.Proofs.CutStores
import Verif.Proofs.Cuts
import Verif.Proofs.DataReader
import Verif.Proofs.DataStore
import Verif.Proofs.Decimal
import Verif.Proofs.EndToEnd
import Verif.Proofs.Estimate
import Verif.Proofs.EstimateTexts
import Verif.Proofs.EstimateWitness
import Verif.Proofs.Exchange
import Verif.Proofs.Failing
import Verif.Proofs.FailingEpochs
import Verif.Proofs.FailingStores
import Verif.Proofs.Fifo
import Verif.Proofs.FileTree
import Verif.Proofs.Follows
import Verif.Proofs.FollowsText
import Verif.Proofs.Garbled
import Verif.Proofs.Gil
import Verif.Proofs.Glob
import Verif.Proofs.GzBlocks
import Verif.Proofs.Gzip
import Verif.Proofs.Hll
import Verif.Proofs.Image
import Verif.Proofs.ImageReader
import Verif.Proofs.InputStream
import Verif.Proofs.Insights
import Verif.Proofs.Instances
import Verif.Proofs.LineMark
import Verif.Proofs.Lines
import Verif.Proofs.LiveFile
import Verif.Proofs.Memory
import Verif.Proofs.Natsort
import Verif.Proofs.Number
import Verif.Proofs.OsResources
import Verif.Proofs.OwnReader
import Verif.Proofs.Parquet
import Verif.Proofs.ParserOptions
import Verif.Proofs.Pipeline
import Verif.Proofs.Poke
import Verif.Proofs.ProtoBatch
import Verif.Proofs.ProtoParallel
import Verif.Proofs.ProtoReader
import Verif.Proofs.Protobuf
import Verif.Proofs.PyAlive
import Verif.Proofs.PyBuffer
import Verif.Proofs.PyExample
import Verif.Proofs.PyLoop
import Verif.Proofs.PyOptions
import Verif.Proofs.PyShare
import Verif.Proofs.ReaderOptions
import Verif.Proofs.RecordIO
import Verif.Proofs.RefCount
import Verif.Proofs.Reports
import Verif.Proofs.Retry
import Verif.Proofs.RetryText
import Verif.Proofs.Round
import Verif.Proofs.S3World
import Verif.Proofs.Sagemaker
import Verif.Proofs.Sampling
import Verif.Proofs.SchemaReader
import Verif.Proofs.Sessions
import Verif.Proofs.SharedStore
import Verif.Proofs.Shuffling
import Verif.Proofs.Sparse
import Verif.Proofs.StoreId
import Verif.Proofs.StoreReaders
import Verif.Proofs.Stores
import Verif.Proofs.StreamReader
import Verif.Proofs.Supplies
import Verif.Proofs.Tensor
import Verif.Proofs.Text
import Verif.Proofs.TextLaws
import Verif.Proofs.TextLineReader
import Verif.Proofs.TextSource
import Verif.Proofs.ToDict
import Verif.Proofs.Tokenizer
import Verif.Proofs.Utf8Stream
import Verif.Proofs.Warnings
import Verif.Proofs.Wire
import Verif.Proofs.Xxhash
import Verif.Proofs.XxhashOnto
import Verif.Props.Alignment
import Verif.Props.Allocators
import Verif.Props.Analyze
import Verif.Props.Arrow
import Verif.Props.ChannelNames
import Verif.Props.ChunkHeap
import Verif.Props.CoreErrors
import Verif.Props.Csv
import Verif.Props.CsvColumns
import Verif.Props.CsvDecode
import Verif.Props.CsvNumbers
import Verif.Props.CsvReader
import Verif.Props.CsvSchema
import Verif.Props.CsvSessions
import Verif.Props.CutStores
import Verif.Props.DataReader
import Verif.Props.DataStore
import Verif.Props.Decimal
import Verif.Props.EndToEnd
import Verif.Props.Estimate
import Verif.Props.EveryValue
import Verif.Props.Exchange
import Verif.Props.FailingStores
import Verif.Props.Fifo
import Verif.Props.FileTree
import Verif.Props.Garbled
import Verif.Props.Gil
import Verif.Props.Glob
import Verif.Props.Gzip
import Verif.Props.HeldText
import Verif.Props.Hll
import Verif.Props.Image
import Verif.Props.ImageReader
import Verif.Props.Insights
import Verif.Props.Instances
import Verif.Props.Latin1
import Verif.Props.ListErrors
import Verif.Props.LiveFile
import Verif.Props.Memory
import Verif.Props.NamesCut
import Verif.Props.Number
import Verif.Props.OpenErrors
import Verif.Props.OsResources
import Verif.Props.Pandas
import Verif.Props.Parquet
import Verif.Props.ParserOptions
import Verif.Props.Pipeline
import Verif.Props.Poke
import Verif.Props.ProtoReader
import Verif.Props.Protobuf
import Verif.Props.PyAlive
import Verif.Props.PyBuffer
import Verif.Props.PyEqual
import Verif.Props.PyError
import Verif.Props.PyExample
import Verif.Props.PyLogging
import Verif.Props.PyLoop
import Verif.Props.PyOptions
import Verif.Props.PySchema
import Verif.Props.PyShare
import Verif.Props.PyStream
import Verif.Props.Races
import Verif.Props.ReaderOptions
import Verif.Props.RecordIO
import Verif.Props.RefCount
import Verif.Props.Reports
import Verif.Props.Retry
import Verif.Props.RetryCsv
import Verif.Props.RetryStores
import Verif.Props.RetryText
import Verif.Props.S3World
import Verif.Props.Sagemaker
import Verif.Props.SchemaReader
import Verif.Props.Sdk
import Verif.Props.Sessions
import Verif.Props.SharedStore
import Verif.Props.SizeHint
import Verif.Props.Sparse
import Verif.Props.StoreId
import Verif.Props.StoreReaders
import Verif.Props.Stores
import Verif.Props.Tensor
import Verif.Props.Text
import Verif.Props.ThreadStart
import Verif.Props.ToDict
import Verif.Props.Utf8Stream
import Verif.Props.Warnings
import Verif.Props.Wire
import Verif.Props.Xxhash
import Verif.Spec.Alignment
import Verif.Spec.Allocators
import Verif.Spec.Analyze
import Verif.Spec.Arrow
import Verif.Spec.ChannelNames
import Verif.Spec.ChunkHeap
import Verif.Spec.CoreErrors
import Verif.Spec.CoreReader
import Verif.Spec.Csv
import Verif.Spec.CsvColumns
import Verif.Spec.CsvDecode
import Verif.Spec.CsvReader
import Verif.Spec.CsvSchema
import Verif.Spec.DataReader
import Verif.Spec.DataStore
import Verif.Spec.Decimal
import Verif.Spec.Estimate
import Verif.Spec.Exchange
import Verif.Spec.FailingStores
import Verif.Spec.Fifo
import Verif.Spec.FileTree
import Verif.Spec.Garbled
import Verif.Spec.Gil
import Verif.Spec.Glob
import Verif.Spec.Gzip
import Verif.Spec.HeldText
import Verif.Spec.Hll
import Verif.Spec.Image
import Verif.Spec.ImageReader
import Verif.Spec.Insights
import Verif.Spec.Instances
import Verif.Spec.Latin1
import Verif.Spec.LiveFile
import Verif.Spec.Memory
import Verif.Spec.Number
import Verif.Spec.OpenErrors
import Verif.Spec.OsResources
import Verif.Spec.Pandas
import Verif.Spec.Parquet
import Verif.Spec.ParserOptions
import Verif.Spec.Pipeline
import Verif.Spec.Poke
import Verif.Spec.ProtoReader
import Verif.Spec.Protobuf
import Verif.Spec.PyAlive
import Verif.Spec.PyBuffer
import Verif.Spec.PyEqual
import Verif.Spec.PyError
import Verif.Spec.PyExample
import Verif.Spec.PyLogging
import Verif.Spec.PyLoop
import Verif.Spec.PyOptions
import Verif.Spec.PySchema
import Verif.Spec.PyShare
import Verif.Spec.PyStream
import Verif.Spec.Races
import Verif.Spec.ReaderOptions
import Verif.Spec.Reading
import Verif.Spec.RecordIO
import Verif.Spec.RefCount
import Verif.Spec.Reports
import Verif.Spec.Retry
import Verif.Spec.RetryStores
import Verif.Spec.RetryText
import Verif.Spec.S3Service
import Verif.Spec.Sagemaker
import Verif.Spec.SchemaReader
import Verif.Spec.Sdk
import Verif.Spec.Sessions
import Verif.Spec.SharedStore
import Verif.Spec.SizeHint
import Verif.Spec.Sparse
import Verif.Spec.StoreId
import Verif.Spec.StoreReaders
import Verif.Spec.Stores
import Verif.Spec.Tensor
import Verif.Spec.TextLineReader
import Verif.Spec.TextSource
import Verif.Spec.ToDict
import Verif.Spec.Utf8Stream
import Verif.Spec.Warnings
import Verif.Spec.Wire
import Verif.Spec.Xxhash
