import Verif.Model.Heck
/-!
# Examples of heck's documentation and tests, on the model
-/
namespace Ethabi.Heck

example : snake (lit "CamelCase") = lit "camel_case" := by decide
example : snake (lit "kebab_case_") = lit "kebab_case" := by decide
example : snake (lit "XMLHttpRequest") = lit "xml_http_request" := by decide
example : snake (lit "SHOUTY_SNAKE_CASE") = lit "shouty_snake_case" := by decide
example : snake (lit "snake_case") = lit "snake_case" := by decide
example : snake (lit "FIELD_NAME11") = lit "field_name11" := by decide
example : snake (lit "99BOTTLES") = lit "99bottles" := by decide
example : snake (lit "FieldNamE11") = lit "field_nam_e11" := by decide
example : snake (lit "abc123def456") = lit "abc123def456" := by decide
example : snake (lit "abc123DEF456") = lit "abc123_def456" := by decide
example : snake (lit "abc123Def456") = lit "abc123_def456" := by decide
example : snake (lit "abc123DEf456") = lit "abc123_d_ef456" := by decide
example : snake (lit "ABC123def456") = lit "abc123def456" := by decide
example : snake (lit "ABC123DEF456") = lit "abc123def456" := by decide
example : snake (lit "ABC123Def456") = lit "abc123_def456" := by decide
example : snake (lit "ABC123DEf456") = lit "abc123d_ef456" := by decide
example : snake (lit "ABC123dEEf456FOO") = lit "abc123d_e_ef456_foo" := by decide
example : snake (lit "abcDEF") = lit "abc_def" := by decide
example : camel (lit "CamelCase") = lit "CamelCase" := by decide
example : camel (lit "SHOUTY_SNAKE_CASE") = lit "ShoutySnakeCase" := by decide
example : camel (lit "snake_case") = lit "SnakeCase" := by decide
example : camel (lit "XMLHttpRequest") = lit "XmlHttpRequest" := by decide
example : camel (lit "FIELD_NAME11") = lit "FieldName11" := by decide
example : camel (lit "99BOTTLES") = lit "99bottles" := by decide

end Ethabi.Heck
